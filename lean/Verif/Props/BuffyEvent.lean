import Verif.Spec.BuffyEvent
import Verif.Props.Buffers
import Verif.Props.BufferTables
import Verif.Props.Hits
import Verif.Lemmas.Lists
import Mathlib.Control.Monad.Basic
/-!
# C107: the buffers written by buffy hold the charge of the event
-/
namespace Verif.BuffyEvent
open Verif.Buffers

/-! ### One waveform -/

/-- Everything a plane needs: the sample of first time and of the end. -/
structure Range (w tMin tMax mb : ℚ) (F : Int) (N : Nat) : Prop where
  pos : 0 < w
  lt : tMin < min tMax (tMin + mb)
  first : F = ⌊tMin / w⌋
  n : N = nBins w tMin tMax mb
  last : F + (N : Int) = ⌈min tMax (tMin + mb) / w⌉

theorem range_of {w tMin tMax mb : ℚ} (hw : 0 < w) (hlt : tMin < min tMax (tMin + mb)) :
    Range w tMin tMax mb ⌊tMin / w⌋ (nBins w tMin tMax mb) :=
  ⟨hw, hlt, rfl, rfl, (nBins_pos hw hlt).2⟩

theorem sample_iff {w : ℚ} (hw : 0 < w) {F : Int} {N : Nat} {t : ℚ} {k : Nat} (hk : k < N) :
    (t ≤ ((F + N : Int) : ℚ) * w ∧ sampleOf w (((F + N : Int) : ℚ) * w) t = F + k) ↔
      ((F : ℚ) + k) * w ≤ t ∧ (t < ((F : ℚ) + k + 1) * w ∨ (k + 1 = N ∧ t = ((F : ℚ) + k + 1) * w)) := by
  have hfl : ⌊((F + N : Int) : ℚ) * w / w⌋ = F + N := by rw [mul_div_cancel_right₀ _ hw.ne', Int.floor_intCast]
  have hkq : (k : ℚ) + 1 ≤ N := by exact_mod_cast hk
  by_cases ht : t = ((F + N : Int) : ℚ) * w
  · have e1 : sampleOf w (((F + N : Int) : ℚ) * w) t = F + N - 1 := by rw [sampleOf, if_pos ht, ht, hfl]
    rw [e1]
    constructor
    · rintro ⟨_, h⟩
      have h1 : k + 1 = N := by omega
      have h2 : (k : ℚ) + 1 = N := by exact_mod_cast h1
      refine ⟨?_, Or.inr ⟨h1, ?_⟩⟩
      · rw [ht]; push_cast; nlinarith
      · rw [ht]; push_cast; rw [← h2]; ring
    · rintro ⟨_, h | ⟨h, _⟩⟩
      · exfalso; rw [ht] at h; push_cast at h; nlinarith
      · exact ⟨ht.le, by omega⟩
  · have e1 : sampleOf w (((F + N : Int) : ℚ) * w) t = ⌊t / w⌋ := by rw [sampleOf, if_neg ht]
    rw [e1, Int.floor_eq_iff, le_div_iff₀ hw, div_lt_iff₀ hw]
    push_cast
    constructor
    · rintro ⟨_, h1, h2⟩; exact ⟨h1, Or.inl h2⟩
    · rintro ⟨h1, h2 | ⟨h2, h3⟩⟩
      · refine ⟨?_, h1, h2⟩; nlinarith
      · exfalso; apply ht; rw [h3]
        have h4 : (k : ℚ) + 1 = N := by exact_mod_cast h2
        push_cast; rw [← h4]; ring

theorem sample_out {w : ℚ} (hw : 0 < w) {F : Int} {N : Nat} (hN : 0 < N) {t : ℚ} (h0 : (F : ℚ) * w ≤ t) {n : Int} (hn : n < F ∨ F + N ≤ n) :
    ¬ (t ≤ ((F + N : Int) : ℚ) * w ∧ sampleOf w (((F + N : Int) : ℚ) * w) t = n) := by
  have hfl : ⌊((F + N : Int) : ℚ) * w / w⌋ = F + N := by rw [mul_div_cancel_right₀ _ hw.ne', Int.floor_intCast]
  rintro ⟨h1, h2⟩
  by_cases ht : t = ((F + N : Int) : ℚ) * w
  · rw [sampleOf, if_pos ht, ht, hfl] at h2; omega
  · rw [sampleOf, if_neg ht] at h2
    have h3 : F ≤ ⌊t / w⌋ := Int.le_floor.2 (by rw [le_div_iff₀ hw]; exact h0)
    have h4 : ⌊t / w⌋ < F + N := Int.floor_lt.2 (by rw [div_lt_iff₀ hw]; exact lt_of_le_of_ne h1 ht)
    omega

theorem charge_filter (rows : List Resp) (s : Nat) (w last : ℚ) (n : Int) :
    chargeOf rows s w last n = (rows.map fun d => if d.sensor = s ∧ d.time ≤ last ∧ sampleOf w last d.time = n then d.charge else 0).sum := by
  unfold chargeOf charge
  induction rows with
  | nil => rfl
  | cons d ds ih => by_cases h : d.sensor = s <;> simp [List.filter_cons, h, ih]

theorem wf_sample {rows : List Resp} {w tMin tMax mb : ℚ} {F : Int} {N : Nat} (hr : Range w tMin tMax mb F N)
    (ht : ∀ d ∈ rows, tMin ≤ d.time) {i s : Nat} {wf : List ℚ} (hs : (binSensors rows w tMin tMax mb).2.1[i]? = some s)
    (hwf : (binSensors rows w tMin tMax mb).2.2[i]? = some wf) (n : Int) :
    wf.length = N ∧ sampleAt wf (n - F) = chargeOf rows s w (((F + N : Int) : ℚ) * w) n := by
  obtain ⟨h1, h2⟩ := waveform_sample rows w tMin tMax mb hr.pos hr.lt i s wf hs hwf
  rw [← hr.n] at h1
  refine ⟨h1, ?_⟩
  rw [charge_filter]
  by_cases hin : F ≤ n ∧ n < F + N
  · obtain ⟨k, hk⟩ : ∃ k : Nat, n = F + k := ⟨(n - F).toNat, by omega⟩
    have hkN : k < N := by omega
    have e : sampleAt wf (n - F) = wf.getD k 0 := by
      rw [sampleAt, if_pos (by omega)]; congr 1; omega
    rw [e, h2 k (by omega)]
    congr 1
    apply List.map_congr_left
    intro d _
    have := sample_iff hr.pos (F := F) (t := d.time) hkN
    rw [h1, ← hr.first, hk]
    simp only [this]
  · have e : sampleAt wf (n - F) = 0 := by
      rw [sampleAt]; split
      · rw [List.getD_eq_getElem?_getD, List.getElem?_eq_none (by omega)]; rfl
      · rfl
    rw [e]
    symm
    apply List.sum_eq_zero
    intro x hx
    obtain ⟨d, hd, rfl⟩ := List.mem_map.1 hx
    have hF : (F : ℚ) * w ≤ d.time := by
      refine le_trans ?_ (ht d hd)
      rw [hr.first, ← le_div_iff₀ hr.pos]; exact Int.floor_le _
    have hN : 0 < N := by rw [hr.n]; exact (nBins_pos hr.pos hr.lt).1
    rw [if_neg]
    rintro ⟨_, h⟩
    exact sample_out hr.pos hN hF (by omega) h

theorem bins_get {rows : List Resp} {w tMin tMax mb : ℚ} {F : Int} {N : Nat} (hr : Range w tMin tMax mb F N) :
    (binSensors rows w tMin tMax mb).1.length = N ∧ ∀ i < N, (binSensors rows w tMin tMax mb).1[i]? = some (((F + i : Int) : ℚ) * w) := by
  obtain ⟨h1, h2, _⟩ := bins_spec rows w tMin tMax mb hr.pos hr.lt
  rw [← hr.n] at h1
  refine ⟨h1, fun i hi => ?_⟩
  rw [h2 i (by omega), hr.first]; push_cast; rfl

theorem rows_length (rows : List Resp) (w tMin tMax mb : ℚ) :
    (binSensors rows w tMin tMax mb).2.1.length = (binSensors rows w tMin tMax mb).2.2.length := by
  simp [binSensors]

theorem rows_ne {rows : List Resp} (h : rows ≠ []) (w tMin tMax mb : ℚ) : (binSensors rows w tMin tMax mb).2.2 ≠ [] := by
  obtain ⟨d, ds, rfl⟩ := List.exists_cons_of_ne_nil h
  have hm : d.sensor ∈ sensorIds (d :: ds) := mem_sensorIds.2 ⟨d, by simp, rfl⟩
  intro he
  simp only [binSensors, List.map_eq_nil_iff] at he
  rw [he] at hm; cases hm

theorem all_sample {rows : List Resp} {w tMin tMax mb : ℚ} {F : Int} {N : Nat} (hr : Range w tMin tMax mb F N)
    (ht : ∀ d ∈ rows, tMin ≤ d.time) (n : Int) :
    ((binSensors rows w tMin tMax mb).2.2.map fun r => sampleAt r (n - F)).sum = charge rows w (((F + N : Int) : ℚ) * w) n := by
  have h1 : ((binSensors rows w tMin tMax mb).2.2.map fun r => sampleAt r (n - F)) =
      (sensorIds rows).map fun s => chargeOf rows s w (((F + N : Int) : ℚ) * w) n := by
    apply List.ext_getElem?
    intro i
    cases hs : (binSensors rows w tMin tMax mb).2.1[i]? with
    | none =>
      have hl := rows_length rows w tMin tMax mb
      have h2 : (binSensors rows w tMin tMax mb).2.2[i]? = none := by
        rw [List.getElem?_eq_none_iff] at hs ⊢; omega
      have h3 : (sensorIds rows)[i]? = none := hs
      rw [List.getElem?_map, List.getElem?_map, h2, h3]; rfl
    | some s =>
      obtain ⟨wf, hwf⟩ : ∃ wf, (binSensors rows w tMin tMax mb).2.2[i]? = some wf := by
        have hl := rows_length rows w tMin tMax mb
        exact ⟨_, List.getElem?_eq_getElem (by have := (List.getElem?_eq_some_iff.1 hs).1; omega)⟩
      have h3 : (sensorIds rows)[i]? = some s := hs
      rw [List.getElem?_map, List.getElem?_map, hwf, h3, Option.map_some, Option.map_some, (wf_sample hr ht hs hwf n).2]
  rw [h1]
  simp only [charge_filter]
  rw [Hits.sum_comm]
  unfold charge
  congr 1
  apply List.map_congr_left
  intro d hd
  have hmem : d.sensor ∈ sensorIds rows := mem_sensorIds.2 ⟨d, hd, rfl⟩
  have hnd : (sensorIds rows).Nodup := (sensorIds_spec rows).1.imp (fun h => Nat.ne_of_lt h)
  by_cases hc : d.time ≤ ((F + N : Int) : ℚ) * w ∧ sampleOf w (((F + N : Int) : ℚ) * w) d.time = n
  · rw [if_pos hc]
    have : ((sensorIds rows).map fun s => if d.sensor = s ∧ d.time ≤ ((F + N : Int) : ℚ) * w ∧ sampleOf w (((F + N : Int) : ℚ) * w) d.time = n then d.charge else 0) =
        (sensorIds rows).map fun s => if s = d.sensor then d.charge else 0 := by
      apply List.map_congr_left; intro s _
      by_cases hs : d.sensor = s
      · rw [if_pos ⟨hs, hc⟩, if_pos hs.symm]
      · rw [if_neg (fun h => hs h.1), if_neg (fun h => hs h.symm)]
    rw [this]
    clear this
    generalize sensorIds rows = l at hmem hnd
    induction l with
    | nil => cases hmem
    | cons a l ih =>
      rw [List.nodup_cons] at hnd
      rcases List.mem_cons.1 hmem with rfl | hm
      · have h0 : (l.map fun s => if s = d.sensor then d.charge else 0).sum = 0 := by
          apply List.sum_eq_zero; intro x hx
          obtain ⟨s, hs, rfl⟩ := List.mem_map.1 hx
          rw [if_neg]; rintro rfl; exact hnd.1 hs
        simp [h0]
      · have hne : a ≠ d.sensor := by rintro rfl; exact hnd.1 hm
        simp [hne, ih hm hnd.2]
  · rw [if_neg hc]
    apply List.sum_eq_zero
    intro x hx
    obtain ⟨s, _, rfl⟩ := List.mem_map.1 hx
    rw [if_neg]; rintro ⟨_, h⟩; exact hc h

/-! ### The planes of a buffer -/

theorem truncZ_zero : truncZ 0 = 0 := by simp [truncZ]

theorem plane_of_window {rows : List Resp} {db : List Nat} {w tMin tMax mb : ℚ} {F : Int} {N : Nat} (hr : Range w tMin tMax mb F N)
    (ht : ∀ d ∈ rows, tMin ≤ d.time) (hdb : db.Pairwise (· < ·)) (hids : ∀ d ∈ rows, d.sensor ∈ db) {win : Mat} {start : Int} {len : Nat}
    (hw : IsWindow (binSensors rows w tMin tMax mb).2.2 start len win) :
    ∃ out, orderPlane db (binSensors rows w tMin tMax mb).2.1 win.rows len = .ok out ∧
      Plane rows db w (((F + N : Int) : ℚ) * w) (F + start) len ⟨out, len⟩ := by
  obtain ⟨_, hl, hget⟩ := hw
  have hlen := rows_length rows w tMin tMax mb
  have hrl : ∀ r ∈ win.rows, r.length = len := by
    intro r hm
    obtain ⟨i, hi⟩ := List.mem_iff_getElem?.1 hm
    have hi' : i < (binSensors rows w tMin tMax mb).2.2.length := by
      have := (List.getElem?_eq_some_iff.1 hi).1; omega
    obtain ⟨o, ho, hol, _⟩ := hget i _ (List.getElem?_eq_getElem hi')
    rw [hi] at ho; cases ho; exact hol
  have hsub : ∀ s ∈ (binSensors rows w tMin tMax mb).2.1, s ∈ db := by
    intro s hs
    obtain ⟨d, hd, rfl⟩ := ((sensorIds_spec rows).2 s).1 hs
    exact hids d hd
  obtain ⟨out, ho, hol, hspec⟩ := orderPlane_spec db _ win.rows len hdb (response_sorted rows w tMin tMax mb) hsub (by omega) hrl
  refine ⟨out, ho, rfl, hol, ?_⟩
  intro i s his
  obtain ⟨h1, h2⟩ := hspec i s his
  by_cases hs : s ∈ (binSensors rows w tMin tMax mb).2.1
  · obtain ⟨j, hj⟩ := List.mem_iff_getElem?.1 hs
    have hj' : j < (binSensors rows w tMin tMax mb).2.2.length := by
      have := (List.getElem?_eq_some_iff.1 hj).1; omega
    have hwf := List.getElem?_eq_getElem hj'
    obtain ⟨o, hoj, hoL, hoS⟩ := hget j _ hwf
    refine ⟨o.map truncZ, h1 j o hj hoj, by simpa using hoL, ?_⟩
    intro k hk
    have e := (wf_sample hr ht hj hwf (F + start + k)).2
    rw [← e, show F + start + k - F = start + k by ring, ← hoS k hk]
    simp only [List.getD_eq_getElem?_getD, List.getElem?_map]
    cases o[k]? with
    | none => simp [truncZ_zero]
    | some x => rfl
  · refine ⟨_, h2 hs, by simp, ?_⟩
    intro k hk
    have e : chargeOf rows s w (((F + N : Int) : ℚ) * w) (F + start + k) = 0 := by
      rw [charge_filter]
      apply List.sum_eq_zero
      intro x hx
      obtain ⟨d, hd, rfl⟩ := List.mem_map.1 hx
      rw [if_neg]
      rintro ⟨rfl, _⟩
      exact hs (((sensorIds_spec rows).2 d.sensor).2 ⟨d, hd, rfl⟩)
    rw [e, truncZ_zero, List.getD_eq_getElem?_getD, List.getElem?_replicate]
    split <;> rfl

/-! ### The event -/

section
variable {p : Pars} {m : Nat} {ev : Event}

theorem time_range (hp : p.Good m) (hs : Seen p ev) :
    (firstAndLastTimes ev.pmt ev.sipm p.pmtW p.sipmW).1 < min (firstAndLastTimes ev.pmt ev.sipm p.pmtW p.sipmW).2
      ((firstAndLastTimes ev.pmt ev.sipm p.pmtW p.sipmW).1 + p.maxTime) := by
  have hsw : 0 < p.sipmW := by rw [hp.ratio.2]; exact mul_pos (by exact_mod_cast hp.ratio.1) hp.width
  obtain ⟨d, ds, hd⟩ := List.exists_cons_of_ne_nil hs.pmt
  have := firstAndLast_spec ev.pmt ev.sipm p.pmtW p.sipmW hp.width hsw d (Or.inl (by rw [hd]; simp))
  exact lt_min (by linarith) (by linarith [hp.time])

theorem lastEdge_eq {w : ℚ} {F : Int} {N : Nat}
    (hr : Range w (firstAndLastTimes ev.pmt ev.sipm p.pmtW p.sipmW).1 (firstAndLastTimes ev.pmt ev.sipm p.pmtW p.sipmW).2 p.maxTime F N) :
    ((F + N : Int) : ℚ) * w = lastEdge p ev w := by
  rw [hr.last]; rfl

theorem slice_ok (hp : p.Good m) (hs : Seen p ev) {F FS : Int} {N NS : Nat}
    (hr : Range p.pmtW (firstAndLastTimes ev.pmt ev.sipm p.pmtW p.sipmW).1 (firstAndLastTimes ev.pmt ev.sipm p.pmtW p.sipmW).2 p.maxTime F N)
    (hrs : Range p.sipmW (firstAndLastTimes ev.pmt ev.sipm p.pmtW p.sipmW).1 (firstAndLastTimes ev.pmt ev.sipm p.pmtW p.sipmW).2 p.maxTime FS NS)
    {i : Nat} (hi : i < N) :
    ∃ b, generateSlice p.bufferLen p.preTrigger p.pmtW p.sipmW i
        (binSensors ev.pmt p.pmtW (firstAndLastTimes ev.pmt ev.sipm p.pmtW p.sipmW).1 (firstAndLastTimes ev.pmt ev.sipm p.pmtW p.sipmW).2 p.maxTime).1
        (binSensors ev.pmt p.pmtW (firstAndLastTimes ev.pmt ev.sipm p.pmtW p.sipmW).1 (firstAndLastTimes ev.pmt ev.sipm p.pmtW p.sipmW).2 p.maxTime).2.2
        (binSensors ev.sipm p.sipmW (firstAndLastTimes ev.pmt ev.sipm p.pmtW p.sipmW).1 (firstAndLastTimes ev.pmt ev.sipm p.pmtW p.sipmW).2 p.maxTime).1
        (binSensors ev.sipm p.sipmW (firstAndLastTimes ev.pmt ev.sipm p.pmtW p.sipmW).1 (firstAndLastTimes ev.pmt ev.sipm p.pmtW p.sipmW).2 p.maxTime).2.2 = .ok b ∧
      IsWindow (binSensors ev.pmt p.pmtW (firstAndLastTimes ev.pmt ev.sipm p.pmtW p.sipmW).1 (firstAndLastTimes ev.pmt ev.sipm p.pmtW p.sipmW).2 p.maxTime).2.2
        ((F + i) / (m : Int) * m - ⌊p.preTrigger / p.pmtW⌋ - F) ⌊p.bufferLen / p.pmtW⌋.toNat b.1 ∧
      IsWindow (binSensors ev.sipm p.sipmW (firstAndLastTimes ev.pmt ev.sipm p.pmtW p.sipmW).1 (firstAndLastTimes ev.pmt ev.sipm p.pmtW p.sipmW).2 p.maxTime).2.2
        ((F + i) / (m : Int) - ⌊p.preTrigger / p.sipmW⌋ - FS) ⌊p.bufferLen / p.sipmW⌋.toNat b.2 := by
  have hsw : 0 < p.sipmW := hrs.pos
  have hmq : (0 : ℚ) < m := by exact_mod_cast hp.ratio.1
  have hmz : (0 : Int) < m := by exact_mod_cast hp.ratio.1
  generalize hT : firstAndLastTimes ev.pmt ev.sipm p.pmtW p.sipmW = T at hr hrs ⊢
  obtain ⟨tMin, tMax⟩ := T
  simp only at hr hrs ⊢
  have hN : 0 < NS := by rw [hrs.n]; exact (nBins_pos hrs.pos hrs.lt).1
  obtain ⟨hlP, hbP⟩ := bins_get (rows := ev.pmt) hr
  obtain ⟨hlS, hbS⟩ := bins_get (rows := ev.sipm) hrs
  have hle : ∀ a b : Int, ((a : ℚ) * p.sipmW ≤ (b : ℚ) * p.pmtW ↔ a * m ≤ b) := by
    intro a b
    rw [hp.ratio.2, ← mul_assoc, mul_le_mul_iff_left₀ hp.width]
    exact_mod_cast Iff.rfl
  have hb0 : ((FS + (0 : Nat) : Int) : ℚ) * p.sipmW ≤ ((F + i : Int) : ℚ) * p.pmtW := by
    rw [hle]
    have h1 : ((FS * m : Int) : ℚ) ≤ tMin / p.pmtW := by
      rw [le_div_iff₀ hp.width]
      have h2 : (FS : ℚ) ≤ tMin / p.sipmW := by rw [hrs.first]; exact Int.floor_le _
      rw [le_div_iff₀ hsw, hp.ratio.2] at h2
      push_cast; linarith
    have h3 : FS * m ≤ F := by rw [hr.first]; exact Int.le_floor.2 h1
    simp only [Nat.cast_zero, add_zero]; omega
  have hwfl : ∀ (rows : List Resp) (w : ℚ) (G : Int) (M : Nat), Range w tMin tMax p.maxTime G M →
      ∀ r ∈ (binSensors rows w tMin tMax p.maxTime).2.2, r.length = (binSensors rows w tMin tMax p.maxTime).1.length := by
    intro rows w G M hR r hm
    obtain ⟨j, hj⟩ := List.mem_iff_getElem?.1 hm
    have hj' : j < (binSensors rows w tMin tMax p.maxTime).2.1.length := by
      have := (List.getElem?_eq_some_iff.1 hj).1; rw [rows_length]; omega
    rw [(waveform_sample rows w tMin tMax p.maxTime hR.pos hR.lt j _ r (List.getElem?_eq_getElem hj') hj).1, (bins_get hR).1, hR.n]
  obtain ⟨bp, bs, g, tg, hg, hgt, htg, hmax, hwS, hwP⟩ := generateSlice_spec p.bufferLen p.preTrigger p.pmtW p.sipmW i _
    (binSensors ev.pmt p.pmtW tMin tMax p.maxTime).2.2 _ (binSensors ev.sipm p.sipmW tMin tMax p.maxTime).2.2 _ _
    hp.width hsw hp.pre (by linarith [hp.room]) (hbP i hi) (hbS 0 hN) hb0 (hwfl _ _ _ _ hr) (hwfl _ _ _ _ hrs) (rows_ne hs.pmt _ _ _ _) (rows_ne hs.sipm _ _ _ _)
  have hgN : g < NS := by have := (List.getElem?_eq_some_iff.1 hgt).1; omega
  have htge : tg = ((FS + g : Int) : ℚ) * p.sipmW := by rw [hbS g hgN] at hgt; exact (Option.some.inj hgt).symm
  -- the SiPM sample of the trigger
  have hlo : (FS + g) * m ≤ F + i := by rw [htge, hle] at htg; exact htg
  have hhi : F + i < (FS + g + 1) * m := by
    by_cases hlast : g + 1 < NS
    · by_contra hcon
      push Not at hcon
      have := hmax (g + 1) _ (hbS (g + 1) hlast) (by rw [hle]; push_cast; linarith)
      omega
    · have hgl : (FS + g + 1 : Int) = FS + NS := by omega
      have h1 : min tMax (tMin + p.maxTime) ≤ ((FS + NS : Int) : ℚ) * p.sipmW := by
        rw [hrs.last, ← div_le_iff₀ hsw]; exact Int.le_ceil _
      have h2 : ((F + i : Int) : ℚ) * p.pmtW < min tMax (tMin + p.maxTime) := by
        rw [← lt_div_iff₀ hp.width]
        have := Int.ceil_lt_add_one (min tMax (tMin + p.maxTime) / p.pmtW)
        rw [← hr.last] at this
        have hq : ((F + i : Int) : ℚ) + 1 ≤ ((F + N : Int) : ℚ) := by exact_mod_cast (by omega : F + i + 1 ≤ F + (N : Int))
        linarith
      rw [hgl]
      by_contra hcon
      push Not at hcon
      have := (hle (FS + NS) (F + i)).2 hcon
      linarith
  have hdiv : (F + i) / (m : Int) = FS + g := by
    rw [Int.ediv_eq_iff_of_pos hmz]
    constructor
    · linarith
    · linarith [add_mul (FS + g) 1 (m : Int)]
  have hcorr : ⌊(((F + i : Int) : ℚ) * p.pmtW - tg) / p.pmtW⌋ = F + i - (FS + g) * m := by
    have : (((F + i : Int) : ℚ) * p.pmtW - tg) / p.pmtW = ((F + i - (FS + g) * m : Int) : ℚ) := by
      rw [htge, hp.ratio.2, div_eq_iff hp.width.ne']; push_cast; ring
    rw [this, Int.floor_intCast]
  rw [hcorr] at hwP
  refine ⟨(bp, bs), hg, ?_, ?_⟩
  · have h1 : (F + i - (FS + g) * m : Int) ≤ i + ⌊p.bufferLen / p.pmtW⌋ - ⌊p.preTrigger / p.pmtW⌋ := by
      have h2 : ⌊p.preTrigger / p.pmtW⌋ + (m : Int) ≤ ⌊p.bufferLen / p.pmtW⌋ := by
        rw [← Int.floor_add_intCast]
        apply Int.floor_le_floor
        rw [le_div_iff₀ hp.width, add_mul, div_mul_cancel₀ _ hp.width.ne']
        have := hp.room
        rw [hp.ratio.2] at this
        push_cast; linarith
      have h3 : F + i - (FS + g) * m < m := by linarith [add_mul (FS + g) 1 (m : Int)]
      omega
    have h2 := hwP h1
    rw [hdiv]
    have e : (i : Int) - ⌊p.preTrigger / p.pmtW⌋ - (F + i - (FS + g) * m) = (FS + g) * m - ⌊p.preTrigger / p.pmtW⌋ - F := by ring
    rw [← e]; exact h2
  · rw [hdiv, show FS + (g : Int) - ⌊p.preTrigger / p.sipmW⌋ - FS = g - ⌊p.preTrigger / p.sipmW⌋ by ring]; exact hwS

theorem buffers_ok (hp : p.Good m) (hs : Seen p ev) {F FS : Int} {N NS : Nat}
    (hr : Range p.pmtW (firstAndLastTimes ev.pmt ev.sipm p.pmtW p.sipmW).1 (firstAndLastTimes ev.pmt ev.sipm p.pmtW p.sipmW).2 p.maxTime F N)
    (hrs : Range p.sipmW (firstAndLastTimes ev.pmt ev.sipm p.pmtW p.sipmW).1 (firstAndLastTimes ev.pmt ev.sipm p.pmtW p.sipmW).2 p.maxTime FS NS)
    (trg : List Nat) (hN : ∀ i ∈ trg, i < N) :
    ∃ times bufs, buffers p ev trg
        (binSensors ev.pmt p.pmtW (firstAndLastTimes ev.pmt ev.sipm p.pmtW p.sipmW).1 (firstAndLastTimes ev.pmt ev.sipm p.pmtW p.sipmW).2 p.maxTime)
        (binSensors ev.sipm p.sipmW (firstAndLastTimes ev.pmt ev.sipm p.pmtW p.sipmW).1 (firstAndLastTimes ev.pmt ev.sipm p.pmtW p.sipmW).2 p.maxTime) =
        .ok (.triggered times bufs) ∧ times.length = trg.length ∧ bufs.length = trg.length ∧
      ∀ (j : Nat) i t b, trg[j]? = some i → times[j]? = some t → bufs[j]? = some b → IsBuffer p m ev (F + i) t b := by
  have hsw : 0 < p.sipmW := hrs.pos
  have hfl := firstAndLast_spec ev.pmt ev.sipm p.pmtW p.sipmW hp.width hsw
  have hone : ∀ i, i < N → ∃ b o, generateSlice p.bufferLen p.preTrigger p.pmtW p.sipmW i
        (binSensors ev.pmt p.pmtW (firstAndLastTimes ev.pmt ev.sipm p.pmtW p.sipmW).1 (firstAndLastTimes ev.pmt ev.sipm p.pmtW p.sipmW).2 p.maxTime).1
        (binSensors ev.pmt p.pmtW (firstAndLastTimes ev.pmt ev.sipm p.pmtW p.sipmW).1 (firstAndLastTimes ev.pmt ev.sipm p.pmtW p.sipmW).2 p.maxTime).2.2
        (binSensors ev.sipm p.sipmW (firstAndLastTimes ev.pmt ev.sipm p.pmtW p.sipmW).1 (firstAndLastTimes ev.pmt ev.sipm p.pmtW p.sipmW).2 p.maxTime).1
        (binSensors ev.sipm p.sipmW (firstAndLastTimes ev.pmt ev.sipm p.pmtW p.sipmW).1 (firstAndLastTimes ev.pmt ev.sipm p.pmtW p.sipmW).2 p.maxTime).2.2 = .ok b ∧
      orderBuffer p (binSensors ev.pmt p.pmtW (firstAndLastTimes ev.pmt ev.sipm p.pmtW p.sipmW).1 (firstAndLastTimes ev.pmt ev.sipm p.pmtW p.sipmW).2 p.maxTime).2.1
        (binSensors ev.sipm p.sipmW (firstAndLastTimes ev.pmt ev.sipm p.pmtW p.sipmW).1 (firstAndLastTimes ev.pmt ev.sipm p.pmtW p.sipmW).2 p.maxTime).2.1 b = .ok o ∧
      IsBuffer p m ev (F + i) (ev.timestamp + ((F + i : Int) : ℚ) * p.pmtW) o := by
    intro i hi
    obtain ⟨b, hb, hwP, hwS⟩ := slice_ok hp hs hr hrs hi
    obtain ⟨oP, hoP, hpP⟩ := plane_of_window hr (fun d hd => (hfl d (Or.inl hd)).1) hp.pmts hs.pmtIds hwP
    obtain ⟨oS, hoS, hpS⟩ := plane_of_window hrs (fun d hd => (hfl d (Or.inr hd)).1) hp.sipms hs.sipmIds hwS
    refine ⟨b, _, hb, by simp only [orderBuffer, nsamp, hoP, hoS]; rfl, rfl, ?_, ?_⟩
    · rw [lastEdge_eq hr] at hpP
      rw [show F + ((F + i) / (m : Int) * m - ⌊p.preTrigger / p.pmtW⌋ - F) = (F + i) / (m : Int) * m - ⌊p.preTrigger / p.pmtW⌋ by ring] at hpP
      exact hpP
    · rw [lastEdge_eq hrs] at hpS
      rw [show FS + ((F + i) / (m : Int) - ⌊p.preTrigger / p.sipmW⌋ - FS) = (F + i) / (m : Int) - ⌊p.preTrigger / p.sipmW⌋ by ring] at hpS
      exact hpS
  have hbins := bins_get (rows := ev.pmt) hr
  have hall : ∀ l : List Nat, (∀ i ∈ l, i < N) → ∃ ts bufs outs,
      npTake (binSensors ev.pmt p.pmtW (firstAndLastTimes ev.pmt ev.sipm p.pmtW p.sipmW).1 (firstAndLastTimes ev.pmt ev.sipm p.pmtW p.sipmW).2 p.maxTime).1 l = .ok ts ∧
      positionSignal p.bufferLen p.preTrigger p.pmtW p.sipmW l
        (binSensors ev.pmt p.pmtW (firstAndLastTimes ev.pmt ev.sipm p.pmtW p.sipmW).1 (firstAndLastTimes ev.pmt ev.sipm p.pmtW p.sipmW).2 p.maxTime).1
        (binSensors ev.pmt p.pmtW (firstAndLastTimes ev.pmt ev.sipm p.pmtW p.sipmW).1 (firstAndLastTimes ev.pmt ev.sipm p.pmtW p.sipmW).2 p.maxTime).2.2
        (binSensors ev.sipm p.sipmW (firstAndLastTimes ev.pmt ev.sipm p.pmtW p.sipmW).1 (firstAndLastTimes ev.pmt ev.sipm p.pmtW p.sipmW).2 p.maxTime).1
        (binSensors ev.sipm p.sipmW (firstAndLastTimes ev.pmt ev.sipm p.pmtW p.sipmW).1 (firstAndLastTimes ev.pmt ev.sipm p.pmtW p.sipmW).2 p.maxTime).2.2 = .ok bufs ∧
      bufs.mapM (orderBuffer p (binSensors ev.pmt p.pmtW (firstAndLastTimes ev.pmt ev.sipm p.pmtW p.sipmW).1 (firstAndLastTimes ev.pmt ev.sipm p.pmtW p.sipmW).2 p.maxTime).2.1
        (binSensors ev.sipm p.sipmW (firstAndLastTimes ev.pmt ev.sipm p.pmtW p.sipmW).1 (firstAndLastTimes ev.pmt ev.sipm p.pmtW p.sipmW).2 p.maxTime).2.1) = .ok outs ∧
      ts.length = l.length ∧ outs.length = l.length ∧
      ∀ (j : Nat) i t b, l[j]? = some i → ts[j]? = some t → outs[j]? = some b → IsBuffer p m ev (F + i) (ev.timestamp + t) b := by
    intro l
    induction l with
    | nil => intro _; exact ⟨[], [], [], rfl, rfl, rfl, rfl, rfl, by simp⟩
    | cons a l ih =>
      intro hl
      obtain ⟨ts, bufs, outs, h1, h2, h3, h4, h5, h6⟩ := ih (fun i hi => hl i (by simp [hi]))
      obtain ⟨b, o, hb, ho, hbuf⟩ := hone a (hl a (by simp))
      have ha := hbins.2 a (hl a (by simp))
      refine ⟨((F + a : Int) : ℚ) * p.pmtW :: ts, b :: bufs, o :: outs, ?_, ?_, ?_, by simp [h4], by simp [h5], ?_⟩
      · simp only [npTake, List.mapM_cons, ha] at h1 ⊢; rw [h1]; rfl
      · simp only [positionSignal, List.mapM_cons, hb] at h2 ⊢; rw [h2]; rfl
      · simp only [List.mapM_cons, ho, h3]; rfl
      · intro j i t b' hj ht hb'
        cases j with
        | zero =>
          simp only [List.getElem?_cons_zero, Option.some.injEq] at hj ht hb'
          subst hj ht hb'; exact hbuf
        | succ j =>
          simp only [List.getElem?_cons_succ] at hj ht hb'
          exact h6 j i t b' hj ht hb'
  obtain ⟨ts, bufs, outs, h1, h2, h3, h4, h5, h6⟩ := hall trg hN
  refine ⟨ts.map (ev.timestamp + ·), outs, ?_, by simpa using h4, h5, ?_⟩
  · simp only [buffers, triggerTimes, h1, Except.map, h2, h3]
  · intro j i t b hj ht hb
    rw [List.getElem?_map] at ht
    obtain ⟨t', ht', rfl⟩ := Option.map_eq_some_iff.1 ht
    exact h6 j i t' b hj ht' hb

theorem charge_out {rows : List Resp} {w tMin tMax mb : ℚ} {F : Int} {N : Nat} (hr : Range w tMin tMax mb F N)
    (ht : ∀ d ∈ rows, tMin ≤ d.time) {n : Int} (hn : n < F ∨ F + N ≤ n) : charge rows w (((F + N : Int) : ℚ) * w) n = 0 := by
  apply List.sum_eq_zero
  intro x hx
  obtain ⟨d, hd, rfl⟩ := List.mem_map.1 hx
  have hF : (F : ℚ) * w ≤ d.time := by
    refine le_trans ?_ (ht d hd)
    rw [hr.first, ← le_div_iff₀ hr.pos]; exact Int.floor_le _
  have hN : 0 < N := by rw [hr.n]; exact (nBins_pos hr.pos hr.lt).1
  rw [if_neg (sample_out hr.pos hN hF hn)]

/-- C107. The triggers of an event with a response in both planes are the samples where the charge of all its PMTs is above threshold, with none like it in the buffer length
before. Without any the event has no signal; otherwise it has, for each trigger in order, its time and a buffer with the charge of every sensor of the database, in
consecutive samples of the two planes starting the pre-trigger before the SiPM sample of the trigger. -/
theorem event_spec (hp : p.Good m) (hs : Seen p ev) :
    ∃ ns : List Int, ns.Pairwise (· < ·) ∧ (∀ n, n ∈ ns ↔ Trigger p ev n) ∧
      ((ns = [] ∧ event p ev = .ok .noSignal) ∨
       (ns ≠ [] ∧ ∃ times bufs, event p ev = .ok (.triggered times bufs) ∧ times.length = ns.length ∧ bufs.length = ns.length ∧
        ∀ (j : Nat) n t b, ns[j]? = some n → times[j]? = some t → bufs[j]? = some b → IsBuffer p m ev n t b)) := by
  have hsw : 0 < p.sipmW := by rw [hp.ratio.2]; exact mul_pos (by exact_mod_cast hp.ratio.1) hp.width
  have hlt := time_range hp hs
  have hfl := firstAndLast_spec ev.pmt ev.sipm p.pmtW p.sipmW hp.width hsw
  have hr := range_of hp.width hlt
  have hrs := range_of hsw hlt
  obtain ⟨F, hF⟩ : ∃ F, F = ⌊(firstAndLastTimes ev.pmt ev.sipm p.pmtW p.sipmW).1 / p.pmtW⌋ := ⟨_, rfl⟩
  obtain ⟨N, hN⟩ : ∃ N, N = nBins p.pmtW (firstAndLastTimes ev.pmt ev.sipm p.pmtW p.sipmW).1 (firstAndLastTimes ev.pmt ev.sipm p.pmtW p.sipmW).2 p.maxTime := ⟨_, rfl⟩
  rw [← hF, ← hN] at hr
  have hpm : ∀ d ∈ ev.pmt, (firstAndLastTimes ev.pmt ev.sipm p.pmtW p.sipmW).1 ≤ d.time := fun d hd => (hfl d (Or.inl hd)).1
  have hfloor : ((⌊p.bufferLen / p.pmtW⌋.toNat : Nat) : Int) = ⌊p.bufferLen / p.pmtW⌋ :=
    Int.toNat_of_nonneg (Int.floor_nonneg.2 (div_nonneg (by linarith [hp.room, hp.pre]) hp.width.le))
  have habove : ∀ i : Nat, Above ⟨(binSensors ev.pmt p.pmtW (firstAndLastTimes ev.pmt ev.sipm p.pmtW p.sipmW).1 (firstAndLastTimes ev.pmt ev.sipm p.pmtW p.sipmW).2 p.maxTime).2.2,
      (binSensors ev.pmt p.pmtW (firstAndLastTimes ev.pmt ev.sipm p.pmtW p.sipmW).1 (firstAndLastTimes ev.pmt ev.sipm p.pmtW p.sipmW).2 p.maxTime).1.length⟩ p.thr i ↔
      i < N ∧ p.thr < charge ev.pmt p.pmtW (lastEdge p ev p.pmtW) (F + i) := by
    intro i
    have h1 := all_sample hr hpm (F + i)
    rw [lastEdge_eq hr] at h1
    have h2 : ∀ r : List ℚ, sampleAt r (F + i - F) = r.getD i 0 := by
      intro r; rw [sampleAt, if_pos (by omega)]; congr 1; omega
    simp only [h2] at h1
    simp only [Above, h1, (bins_get hr).1]
  have hin : ∀ n, p.thr < charge ev.pmt p.pmtW (lastEdge p ev p.pmtW) n → ∃ i : Nat, n = F + i ∧ i < N := by
    intro n hn
    by_cases h : F ≤ n ∧ n < F + N
    · exact ⟨(n - F).toNat, by omega, by omega⟩
    · have h0 := charge_out hr hpm (n := n) (by omega)
      rw [lastEdge_eq hr] at h0
      rw [h0] at hn
      exact absurd hn (not_lt.2 hp.thr)
  obtain ⟨trg, htrg, hsort, hmem⟩ := findSignalStart_spec ⟨(binSensors ev.pmt p.pmtW (firstAndLastTimes ev.pmt ev.sipm p.pmtW p.sipmW).1 (firstAndLastTimes ev.pmt ev.sipm p.pmtW p.sipmW).2 p.maxTime).2.2,
      (binSensors ev.pmt p.pmtW (firstAndLastTimes ev.pmt ev.sipm p.pmtW p.sipmW).1 (firstAndLastTimes ev.pmt ev.sipm p.pmtW p.sipmW).2 p.maxTime).1.length⟩ p.thr ⌊p.bufferLen / p.pmtW⌋.toNat
  have hev : event p ev = if trg = [] then .ok .noSignal else buffers p ev trg
        (binSensors ev.pmt p.pmtW (firstAndLastTimes ev.pmt ev.sipm p.pmtW p.sipmW).1 (firstAndLastTimes ev.pmt ev.sipm p.pmtW p.sipmW).2 p.maxTime)
        (binSensors ev.sipm p.sipmW (firstAndLastTimes ev.pmt ev.sipm p.pmtW p.sipmW).1 (firstAndLastTimes ev.pmt ev.sipm p.pmtW p.sipmW).2 p.maxTime) := by
    simp only [event, hs.pmt, hs.sipm, or_self, if_false, signal, signalFinder, htrg]
  refine ⟨trg.map fun i : Nat => F + (i : Int), ?_, ?_, ?_⟩
  · rw [List.pairwise_map]; exact hsort.imp (fun h => by omega)
  · intro n
    simp only [List.mem_map, Trigger]
    constructor
    · rintro ⟨i, hi, rfl⟩
      obtain ⟨h1, h2⟩ := (hmem i).1 hi
      refine ⟨((habove i).1 h1).2, ?_⟩
      intro u hu hlt'
      obtain ⟨k, rfl, hk⟩ := hin u hu
      have := h2 k ((habove k).2 ⟨hk, hu⟩) (by omega)
      omega
    · rintro ⟨h1, h2⟩
      obtain ⟨i, rfl, hi⟩ := hin n h1
      refine ⟨i, (hmem i).2 ⟨(habove i).2 ⟨hi, h1⟩, ?_⟩, rfl⟩
      intro u hu hlt'
      have := h2 (F + u) ((habove u).1 hu).2 (by omega)
      omega
  · by_cases he : trg = []
    · left; rw [hev, if_pos he, he]; exact ⟨rfl, rfl⟩
    · right
      obtain ⟨times, bufs, h1, h2, h3, h4⟩ := buffers_ok hp hs hr hrs trg (fun i hi => ((habove i).1 ((hmem i).1 hi).1).1)
      refine ⟨by simpa using he, times, bufs, by rw [hev, if_neg he, h1], by simpa using h2, by simpa using h3, ?_⟩
      intro j n t b hj ht hb
      rw [List.getElem?_map] at hj
      obtain ⟨i, hi, rfl⟩ := Option.map_eq_some_iff.1 hj
      exact h4 j i t b hi ht hb

/-- C107. An event without response in some plane gives nothing. -/
theorem no_response (p : Pars) (ev : Event) (h : ev.pmt = [] ∨ ev.sipm = []) : event p ev = .ok .noResponse := by
  rw [event, if_pos h]

theorem truncZ_int (k : Int) : truncZ k = k := by
  unfold truncZ; split
  · rw [Int.floor_intCast]
  · rw [Int.ceil_intCast]

/-- C107. If the event is not longer than the maximum time nothing is lost: the charge of a sample is that of all the rows from its beginning to its end, and the
conversion of the waveforms to integers does not change it for whole photoelectrons. -/
theorem whole_event (hp : p.Good m) (rows : List Resp) (hsub : ∀ d ∈ rows, d ∈ ev.pmt ∨ d ∈ ev.sipm) {w : ℚ} (hw : 0 < w)
    (hshort : max (Voxels.npMax (ev.pmt.map (·.time))) (Voxels.npMax (ev.sipm.map (·.time))) + min p.pmtW p.sipmW ≤ firstTime ev + p.maxTime) (n : Int) :
    charge rows w (lastEdge p ev w) n = (rows.map fun d => if n * w ≤ d.time ∧ d.time < (n + 1) * w then d.charge else 0).sum ∧
    ((∀ d ∈ rows, ∃ k : Int, d.charge = k) → truncZ (charge rows w (lastEdge p ev w) n) = charge rows w (lastEdge p ev w) n) := by
  have hsw : 0 < p.sipmW := by rw [hp.ratio.2]; exact mul_pos (by exact_mod_cast hp.ratio.1) hp.width
  have hfl := firstAndLast_spec ev.pmt ev.sipm p.pmtW p.sipmW hp.width hsw
  constructor
  · unfold charge
    congr 1
    apply List.map_congr_left
    intro d hd
    have h1 : d.time < lastTime p ev := by
      rw [lastTime, min_eq_left hshort]; exact (hfl d (hsub d hd)).2
    have h2 : lastTime p ev ≤ lastEdge p ev w := by
      rw [lastEdge, ← div_le_iff₀ hw]; exact Int.le_ceil _
    have h3 : d.time < lastEdge p ev w := h1.trans_le h2
    have e : sampleOf w (lastEdge p ev w) d.time = ⌊d.time / w⌋ := by rw [sampleOf, if_neg h3.ne]
    have : (d.time ≤ lastEdge p ev w ∧ sampleOf w (lastEdge p ev w) d.time = n) ↔ (n * w ≤ d.time ∧ d.time < (n + 1) * w) := by
      rw [e, Int.floor_eq_iff, le_div_iff₀ hw, div_lt_iff₀ hw]
      exact ⟨fun h => h.2, fun h => ⟨h3.le, h⟩⟩
    simp only [this]
  · intro hint
    obtain ⟨k, hk⟩ : ∃ k : Int, charge rows w (lastEdge p ev w) n = k := by
      unfold charge
      clear hsub
      induction rows with
      | nil => exact ⟨0, by simp⟩
      | cons d ds ih =>
        obtain ⟨k, hk⟩ := ih (fun d hd => hint d (by simp [hd]))
        obtain ⟨c, hc⟩ := hint d (by simp)
        simp only [List.map_cons, List.sum_cons, hk]
        split
        · exact ⟨c + k, by rw [hc]; push_cast; rfl⟩
        · exact ⟨k, by simp⟩
    rw [hk, truncZ_int]

/-- C107. With a pre-trigger of a whole number of SiPM samples the two planes of a buffer start at the same time. -/
theorem planes_aligned (hp : p.Good m) (k : Int) (hk : p.preTrigger = k * p.sipmW) (n : Int) :
    ((n / (m : Int) * m - ⌊p.preTrigger / p.pmtW⌋ : Int) : ℚ) * p.pmtW = ((n / (m : Int) - ⌊p.preTrigger / p.sipmW⌋ : Int) : ℚ) * p.sipmW := by
  have hsw : 0 < p.sipmW := by rw [hp.ratio.2]; exact mul_pos (by exact_mod_cast hp.ratio.1) hp.width
  have e1 : p.preTrigger / p.sipmW = (k : ℚ) := by rw [hk, mul_div_cancel_right₀ _ hsw.ne']
  have e2 : p.preTrigger / p.pmtW = ((k * m : Int) : ℚ) := by
    rw [hk, hp.ratio.2, div_eq_iff hp.width.ne']; push_cast; ring
  rw [e1, e2, Int.floor_intCast, Int.floor_intCast]
  push_cast
  rw [hp.ratio.2]; ring

/-! ### A run -/

theorem count_bounded (hp : p.Good m) (k : Nat) (hk : p.maxTime = k * p.pmtW) (hlen : p.bufferLen ≤ p.maxTime)
    (hs : Seen p ev) {times : List ℚ} {bufs : List (Mat × Mat)} (h : event p ev = .ok (.triggered times bufs)) :
    times.length = bufs.length ∧ times.length ≤ maxSubevt p.maxTime p.bufferLen := by
  have hlt := time_range hp hs
  have hr := range_of hp.width hlt
  have hB : 0 < p.bufferLen := by
    have hsw : 0 < p.sipmW := by rw [hp.ratio.2]; exact mul_pos (by exact_mod_cast hp.ratio.1) hp.width
    linarith [hp.room, hp.pre]
  simp only [event, hs.pmt, hs.sipm, or_self, if_false, signal] at h
  split at h
  · cases h
  · rename_i trg htrg
    split at h
    · cases h
    · have hb := triggers_bounded p.bufferLen p.maxTime p.pmtW p.thr _ trg hp.width hB hlen (by
        simp only [(bins_get hr).1]
        rw [hk]; exact nBins_bounded p.pmtW _ _ k hp.width) htrg
      simp only [buffers, triggerTimes] at h
      split at h
      · cases h
      · rename_i ts hts
        split at h
        · cases h
        · rename_i bs hbs
          split at h
          · cases h
          · rename_i os hos
            cases h
            have h1 := (positionSignal_each _ _ _ _ _ _ _ _ _ _ hbs).1
            have h2 := (mapM_ok_iff.1 hos).length_eq
            cases hn : npTake (binSensors ev.pmt p.pmtW (firstAndLastTimes ev.pmt ev.sipm p.pmtW p.sipmW).1 (firstAndLastTimes ev.pmt ev.sipm p.pmtW p.sipmW).2 p.maxTime).1 trg with
            | error e => rw [hn] at hts; cases hts
            | ok ys =>
              rw [hn] at hts
              cases hts
              have h3 : ys.length = trg.length := by
                unfold npTake at hn; exact (mapM_ok_iff.1 hn).length_eq.symm
              simp only [List.length_map]
              omega

theorem sorted_unique {l l' : List Int} (h : l.Pairwise (· < ·)) (h' : l'.Pairwise (· < ·)) (he : ∀ n, n ∈ l ↔ n ∈ l') : l = l' := by
  have hp : l.Perm l' := (List.perm_ext_iff_of_nodup (h.imp fun h => ne_of_lt h) (h'.imp fun h => ne_of_lt h)).2 he
  exact hp.eq_of_pairwise (fun a b _ _ h1 h2 => absurd h1 (not_lt.2 h2.le)) h h'

/-- C107. A run never fails: over events with different numbers, in any order, with or without response, the numbers of the buffers are all different (and increase if those of the events do),
their nexus event is the quotient by the maximum number of buffers per event, and the rows of the tables are the triggers of the events, each with its number, its time and its
buffers, at the same position of the four tables. -/
theorem run_spec (hp : p.Good m) (k : Nat) (hk : p.maxTime = k * p.pmtW) (hlen : p.bufferLen ≤ p.maxTime) (runNumber : Nat) (evs : List Event)
    (hseen : ∀ ev ∈ evs, Seen p ev ∨ ev.pmt = [] ∨ ev.sipm = []) (hnum : (evs.map Event.number).Nodup) :
    ∃ t, run p runNumber evs = .ok t ∧ ((t.events.map (·.2.1)).Nodup ∧ ((evs.map Event.number).Pairwise (· < ·) → (t.events.map (·.2.1)).Pairwise (· < ·))) ∧ t.events.map (·.2.1) = t.eventMap.map (·.1) ∧
      t.pmtrd.length = t.events.length ∧ t.sipmrd.length = t.events.length ∧
      (∀ row ∈ t.eventMap, row.2 = row.1 / maxSubevt p.maxTime p.bufferLen) ∧
      (∀ r < t.events.length, ∃ ev ∈ evs, Seen p ev ∧ ∃ j n, TriggerRow p m runNumber t ev r j n) ∧
      ∀ ev ∈ evs, Seen p ev → ∀ ns : List Int, ns.Pairwise (· < ·) → (∀ n, n ∈ ns ↔ Trigger p ev n) → ∀ (j : Nat) n, ns[j]? = some n →
        ∃ r, TriggerRow p m runNumber t ev r j n := by
  have hok : ∀ ev ∈ evs, ∃ y, withOutcome p ev = .ok y := by
    intro ev hev
    rcases hseen ev hev with hs | hno
    · obtain ⟨ns, _, _, ⟨_, h⟩ | ⟨_, ts, bs, h, _⟩⟩ := event_spec hp hs
      · exact ⟨_, by simp only [withOutcome, h]; rfl⟩
      · exact ⟨_, by simp only [withOutcome, h]; rfl⟩
    · exact ⟨_, by simp only [withOutcome, no_response p ev hno]; rfl⟩
  obtain ⟨outs, houts⟩ := mapM_ok hok
  have hf := mapM_ok_iff.1 houts
  have hout : outs.map Prod.fst = evs ∧ ∀ x ∈ outs, event p x.1 = .ok x.2 := by
    clear houts hok hnum hseen
    induction hf with
    | nil => exact ⟨rfl, by simp⟩
    | @cons a b l₁ l₂ h _ ih =>
      unfold withOutcome at h
      cases he : event p a with
      | error e => rw [he] at h; cases h
      | ok o =>
        rw [he] at h; cases h
        refine ⟨by simp [ih.1], ?_⟩
        intro x hx
        rcases List.mem_cons.1 hx with rfl | hx
        · exact he
        · exact ih.2 x hx
  have htrig : ∀ e ∈ outs.filterMap toWrite, ∃ ev ∈ evs, Seen p ev ∧ e.nexus = ev.number ∧ event p ev = .ok (.triggered e.times e.buffers) := by
    intro e he
    obtain ⟨x, hx, hxe⟩ := List.mem_filterMap.1 he
    have hev : x.1 ∈ evs := by rw [← hout.1]; exact List.mem_map.2 ⟨x, hx, rfl⟩
    have h1 := hout.2 x hx
    unfold toWrite at hxe
    cases hx2 : x.2 with
    | noResponse => rw [hx2] at hxe; cases hxe
    | noSignal => rw [hx2] at hxe; cases hxe
    | triggered ts bs =>
      rw [hx2] at hxe h1
      cases hxe
      refine ⟨x.1, hev, ?_, rfl, h1⟩
      rcases hseen x.1 hev with hs | hno
      · exact hs
      · rw [no_response p x.1 hno] at h1; cases h1
  have hl : ∀ e ∈ outs.filterMap toWrite, e.times.length = e.buffers.length := by
    intro e he
    obtain ⟨ev, _, hs, _, h⟩ := htrig e he
    exact (count_bounded hp k hk hlen hs h).1
  have hmax : ∀ e ∈ outs.filterMap toWrite, e.times.length ≤ maxSubevt p.maxTime p.bufferLen := by
    intro e he
    obtain ⟨ev, _, hs, _, h⟩ := htrig e he
    exact (count_bounded hp k hk hlen hs h).2
  have hsub : ((outs.filterMap toWrite).map (·.nexus)).Sublist (evs.map Event.number) := by
    rw [← hout.1, List.map_map]
    clear hout htrig hl hmax houts hf
    induction outs with
    | nil => exact List.Sublist.refl _
    | cons x xs ih =>
      rw [List.filterMap_cons]
      unfold toWrite at ih ⊢
      cases hx2 : x.2 with
      | noResponse => exact ih.trans (List.sublist_cons_self _ _)
      | noSignal => exact ih.trans (List.sublist_cons_self _ _)
      | triggered ts bs => simpa using ih
  have hnd : ((outs.filterMap toWrite).map (·.nexus)).Nodup := hsub.nodup hnum
  obtain ⟨ha1, ha2, ha3⟩ := tables_aligned runNumber (maxSubevt p.maxTime p.bufferLen) _ hl
  refine ⟨_, by simp only [run, houts], ⟨event_numbers_unique _ _ _ hl hmax hnd, fun ho => rows_in_order _ _ _ hl hmax (ho.sublist hsub)⟩, ha1, ha2, ha3, nexus_event_recovered _ _ _ hl hmax, ?_, ?_⟩
  · intro r hr
    obtain ⟨e, he, j, t, b, ht, hb, hr1, hr2, hr3, hr4⟩ := row_trigger runNumber (maxSubevt p.maxTime p.bufferLen) _ hl hr
    obtain ⟨ev, hev, hs, hnx, h⟩ := htrig e he
    obtain ⟨ns, hsort, hmem, ⟨_, h'⟩ | ⟨_, ts, bs, h', hlt, hlb, hbuf⟩⟩ := event_spec hp hs
    · rw [h'] at h; cases h
    · rw [h'] at h
      injection h with h
      injection h with h1 h2
      subst h1 h2
      have hj : j < e.times.length := (List.getElem?_eq_some_iff.1 ht).1
      rw [hnx] at hr1 hr2
      exact ⟨ev, hev, hs, j, ns[j]'(by omega), ⟨ns, hsort, hmem, List.getElem?_eq_getElem _⟩, t, b, hr1, hr2, hr3, hr4,
        hbuf j _ _ _ (List.getElem?_eq_getElem (by omega)) ht hb⟩
  · intro ev hev hs ns hsort hmem j n hj
    obtain ⟨ns', hsort', hmem', hcase⟩ := event_spec hp hs
    have hns : ns' = ns := sorted_unique hsort' hsort (fun n => by rw [hmem', hmem])
    subst hns
    rcases hcase with ⟨h0, _⟩ | ⟨_, ts, bs, h', hlt, hlb, hbuf⟩
    · rw [h0] at hj; cases hj
    · have hjl : j < ns'.length := (List.getElem?_eq_some_iff.1 hj).1
      have hmemE : (⟨ev.number, ts, bs⟩ : Evt) ∈ outs.filterMap toWrite := by
        rw [List.mem_filterMap]
        rw [← hout.1] at hev
        obtain ⟨x, hx, rfl⟩ := List.mem_map.1 hev
        have h1 := hout.2 x hx
        rw [h'] at h1
        refine ⟨x, hx, ?_⟩
        unfold toWrite
        rw [← Except.ok.inj h1]
      have hjt : j < ts.length := by omega
      have hjb : j < bs.length := by omega
      obtain ⟨r, hr1, hr2, hr3, hr4⟩ := trigger_row runNumber (maxSubevt p.maxTime p.bufferLen) _ hl hmemE (List.getElem?_eq_getElem hjt) (List.getElem?_eq_getElem hjb)
      exact ⟨r, ⟨ns', hsort, hmem, hj⟩, _, _, hr1, hr2, hr3, hr4, hbuf j _ _ _ hj (List.getElem?_eq_getElem hjt) (List.getElem?_eq_getElem hjb)⟩

end

/-! ### Examples -/

def exPars : Pars := ⟨8, 2, 16, 3, 1, 2, [0, 1], [10, 11, 12]⟩
def exEv : Event := ⟨7, 100, [⟨1, 5, 4⟩, ⟨0, 6, 1⟩, ⟨1, 6, 2⟩, ⟨0, 15, 9⟩], [⟨11, 5, 3⟩, ⟨12, 15, 2⟩]⟩

theorem exPars_good : exPars.Good 2 := by
  constructor <;> simp [exPars] <;> norm_num

theorem exEv_seen : Seen exPars exEv := by
  constructor <;> simp [exPars, exEv]

/-- `event_spec`, `whole_event` and `run_spec` apply, with two triggers. -/
example : exPars.Good 2 ∧ Seen exPars exEv ∧ exPars.maxTime = (16 : Nat) * exPars.pmtW ∧
    event exPars exEv = .ok (.triggered [105, 115]
      [(⟨[[0, 0, 0, 0, 1, 0, 0, 0], [0, 0, 0, 4, 2, 0, 0, 0]], 8⟩, ⟨[[0, 0, 0, 0], [0, 3, 0, 0], [0, 0, 0, 0]], 4⟩),
       (⟨[[0, 0, 0, 9, 0, 0, 0, 0], [0, 0, 0, 0, 0, 0, 0, 0]], 8⟩, ⟨[[0, 0, 0, 0], [0, 0, 0, 0], [0, 2, 0, 0]], 4⟩)]) := by
  refine ⟨exPars_good, exEv_seen, by norm_num [exPars], by decide +kernel⟩

example : exPars.preTrigger = (1 : Int) * exPars.sipmW := by norm_num [exPars]

end Verif.BuffyEvent
