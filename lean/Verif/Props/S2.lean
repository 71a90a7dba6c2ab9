import Verif.Lemmas.Wfs
import Verif.Spec.Detsim
import Verif.Props.Deconv
import Verif.Props.KrEvent
import Mathlib.Tactic.IntervalCases
/-!
# S2 waveforms of the detector simulation (C45)
-/
namespace Verif.Detsim

/-! ### Spreading -/

/-- The state of the loop: lengths and samples. -/
theorem spread_loop (hist : List ℚ) (nl nr : Nat) (idx : List Nat) : ∀ out : List ℚ, out.length = hist.length + (nl + nr) - 1 →
    (∀ h ∈ idx, nl ≤ h ∧ h < hist.length) →
    (idx.foldl (spreadStep hist nl nr) out).length = out.length ∧ ∀ j : Nat, (idx.foldl (spreadStep hist nl nr) out).getD j 0 =
      out.getD j 0 + (idx.map fun h : Nat => if h - nl ≤ j ∧ j < h - nl + (nl + nr) then max 0 (hist.getD h 0) / (nl + nr : Nat) else 0).sum := by
  induction idx with
  | nil => intro out _ _; simp
  | cons h idx ih =>
    intro out hl hi
    obtain ⟨h1, h2⟩ := hi h List.mem_cons_self
    have hstep : (spreadStep hist nl nr out h).length = out.length ∧ ∀ j : Nat, (spreadStep hist nl nr out h).getD j 0 =
        out.getD j 0 + if h - nl ≤ j ∧ j < h - nl + (nl + nr) then max 0 (hist.getD h 0) / (nl + nr : Nat) else 0 := by
      unfold spreadStep
      by_cases hp : 0 < hist.getD h 0
      · rw [if_pos hp, max_eq_right hp.le]
        exact ⟨spreadOne_length _ _ _ _, fun j => spreadOne_getD _ _ _ _ _ (by omega)⟩
      · rw [if_neg hp, max_eq_left (not_lt.1 hp)]
        refine ⟨rfl, fun j => ?_⟩
        simp
    obtain ⟨h3, h4⟩ := ih (spreadStep hist nl nr out h) (by rw [hstep.1]; exact hl) (fun k hk => hi k (List.mem_cons_of_mem _ hk))
    rw [List.foldl_cons]
    refine ⟨by rw [h3, hstep.1], ?_⟩
    intro j
    rw [h4, hstep.2, List.map_cons, List.sum_cons]; ring

/-- **C45** (spreading).  The spread histogram has the length of the histogram, and its bin `j` holds the fraction `1/(nl+nr)` of each
positive bin from `nl` on whose window, from `nl` bins before to `nr − 1` bins after, contains `j`. -/
theorem spread_bins (hist : List ℚ) (nl nr : Nat) (hn : 0 < nl + nr) :
    (spreadHistogram hist nl nr).length = hist.length ∧ ∀ j < hist.length, (spreadHistogram hist nl nr).getD j 0 =
      ((List.range hist.length).map fun h : Nat =>
        if nl ≤ h ∧ h ≤ j + nl ∧ j < h + nr then max 0 (hist.getD h 0) / (nl + nr : Nat) else 0).sum := by
  obtain ⟨h1, h2⟩ := spread_loop hist nl nr (List.range' nl (hist.length - nl)) (List.replicate (hist.length + (nl + nr) - 1) 0) (by simp)
    (fun h hh => by rw [List.mem_range'_1] at hh; omega)
  refine ⟨by unfold spreadHistogram; rw [List.length_take, h1, List.length_replicate]; omega, ?_⟩
  intro j hj
  unfold spreadHistogram
  rw [List.getD_eq_getElem?_getD, List.getElem?_take, if_pos hj, ← List.getD_eq_getElem?_getD, h2]
  have hz : (List.replicate (hist.length + (nl + nr) - 1) (0 : ℚ)).getD j 0 = 0 := by
    rw [List.getD_eq_getElem?_getD, List.getElem?_replicate]; split <;> rfl
  rw [hz, zero_add]
  by_cases hnl : nl ≤ hist.length
  · have hsplit : List.range hist.length = List.range nl ++ List.range' nl (hist.length - nl) := by
      rw [List.range_eq_range', List.range_eq_range', show hist.length = nl + (hist.length - nl) by omega, ← List.range'_append]
      simp
    rw [hsplit, List.map_append, List.sum_append]
    have h0 : ((List.range nl).map fun h : Nat => if nl ≤ h ∧ h ≤ j + nl ∧ j < h + nr then max 0 (hist.getD h 0) / (nl + nr : Nat) else 0).sum = 0 := by
      apply List.sum_eq_zero
      intro x hx
      obtain ⟨h, hh, rfl⟩ := List.mem_map.1 hx
      rw [List.mem_range] at hh
      rw [if_neg (by omega)]
    rw [h0, zero_add]
    congr 1
    apply List.map_congr_left
    intro h hh
    rw [List.mem_range'_1] at hh
    by_cases hc : nl ≤ h ∧ h ≤ j + nl ∧ j < h + nr
    · rw [if_pos hc, if_pos (by omega)]
    · rw [if_neg hc, if_neg (by omega)]
  · rw [show hist.length - nl = 0 by omega]
    symm
    apply List.sum_eq_zero
    intro x hx
    obtain ⟨h, hh, rfl⟩ := List.mem_map.1 hx
    rw [List.mem_range] at hh
    rw [if_neg (by omega)]

/-- **C45** (spreading).  What the spread histogram holds: each positive bin from `nl` on contributes the part of its window inside the buffer. -/
theorem spread_total (hist : List ℚ) (nl nr : Nat) (hn : 0 < nl + nr) :
    (spreadHistogram hist nl nr).sum = ((List.range hist.length).map fun h : Nat =>
      if nl ≤ h then max 0 (hist.getD h 0) / (nl + nr : Nat) * (min (nl + nr) (hist.length - (h - nl)) : Nat) else 0).sum := by
  obtain ⟨h1, h2⟩ := spread_bins hist nl nr hn
  rw [← Sampling.sum_getD, h1]
  rw [show ((List.range hist.length).map fun i : Nat => (spreadHistogram hist nl nr).getD i 0) =
    (List.range hist.length).map fun j : Nat => ((List.range hist.length).map fun h : Nat =>
        if nl ≤ h ∧ h ≤ j + nl ∧ j < h + nr then max 0 (hist.getD h 0) / (nl + nr : Nat) else 0).sum from
    List.map_congr_left fun j hj => h2 j (List.mem_range.1 hj)]
  rw [Hits.sum_comm]
  congr 1
  apply List.map_congr_left
  intro h _
  by_cases hh : nl ≤ h
  · rw [if_pos hh, ← sum_window (h - nl) (nl + nr) hist.length]
    congr 1
    apply List.map_congr_left
    intro j _
    by_cases hc : nl ≤ h ∧ h ≤ j + nl ∧ j < h + nr
    · rw [if_pos hc, if_pos (by omega)]
    · rw [if_neg hc, if_neg (by omega)]
  · rw [if_neg hh]
    apply List.sum_eq_zero
    intro x hx
    obtain ⟨j, _, rfl⟩ := List.mem_map.1 hx
    rw [if_neg (by omega)]

/-- **C45** (spreading).  Nothing is lost when the histogram is not negative and the windows of its filled bins are inside the buffer. -/
theorem spread_conserves (hist : List ℚ) (nl nr : Nat) (hn : 0 < nl + nr) (h0 : ∀ v ∈ hist, 0 ≤ v)
    (hin : ∀ h < hist.length, hist.getD h 0 ≠ 0 → nl ≤ h ∧ h + nr ≤ hist.length) : (spreadHistogram hist nl nr).sum = hist.sum := by
  rw [spread_total hist nl nr hn, ← Sampling.sum_getD hist]
  congr 1
  apply List.map_congr_left
  intro h hh
  rw [List.mem_range] at hh
  have hpos : 0 ≤ hist.getD h 0 := by
    rw [List.getD_eq_getElem?_getD, List.getElem?_eq_getElem hh]
    exact h0 _ (List.getElem_mem hh)
  by_cases hz : hist.getD h 0 = 0
  · rw [hz]; simp
  · obtain ⟨h1, h2⟩ := hin h hh hz
    rw [if_pos h1, max_eq_right hpos, show min (nl + nr) (hist.length - (h - nl)) = nl + nr by omega]
    have : ((nl + nr : Nat) : ℚ) ≠ 0 := by exact_mod_cast (by omega : nl + nr ≠ 0)
    field_simp

/-- A filled bin in the middle is conserved; one in the first `nl` bins is lost; one at the end is cut. -/
example : (∀ v ∈ [0, 0, 4, 0, 0], (0 : ℚ) ≤ v) ∧ spreadHistogram [0, 0, 4, 0, 0] 2 2 = [1, 1, 1, 1, 0] ∧
    spreadHistogram [0, 4, 0, 0, 0] 2 2 = [0, 0, 0, 0, 0] ∧ spreadHistogram [0, 0, 0, 0, 4] 2 2 = [0, 0, 1, 1, 1] := by decide +kernel

/-! ### The waveforms -/

theorem InBin_iff {tmin bin t : ℚ} {b : Nat} (hb : 0 < bin) : InBin tmin bin b t ↔ ⌊(t - tmin) / bin⌋ = (b : Int) := by
  rw [Int.floor_eq_iff, le_div_iff₀ hb, div_lt_iff₀ hb]
  unfold InBin
  push_cast
  constructor <;> rintro ⟨h1, h2⟩ <;> constructor <;> linarith

theorem time_eq {lt : LightTable} {dv bin tmin : ℚ} (g : Geometry lt dv bin) (e : Electron) (k : Nat) :
    (e.t - tmin) / bin + timeBs lt dv bin * (k + 1 / 2) = (emission lt dv e k - tmin) / bin := by
  have h1 := g.dv.ne'
  have h2 := g.bin.ne'
  have h3 : (lt.nz : ℚ) ≠ 0 := by exact_mod_cast g.nz.ne'
  unfold timeBs emission
  field_simp
  ring

theorem depositsAt_eq {lt : LightTable} {dv bin : ℚ} (g : Geometry lt dv bin) (tmin : ℚ) (e : Electron) (s : Nat) :
    depositsAt lt dv bin tmin e s = if (lt.values e.x e.y s).isSome then
      (List.range lt.nz).map fun k : Nat => ⟨s, ⌊(emission lt dv e k - tmin) / bin⌋, seen lt e s k⟩ else [] := by
  unfold depositsAt seen
  cases h : lt.values e.x e.y s with
  | none => simp
  | some vals =>
    simp only [Option.isSome_some, if_true, Option.getD_some]
    rw [elTimes_eq g.nz g.gap g.dv g.bin]
    apply List.ext_getElem?
    intro i
    rw [List.getElem?_map, List.getElem?_zipIdx, List.getElem?_map, List.getElem?_map]
    by_cases hi : i < lt.nz
    · rw [List.getElem?_range hi]
      simp only [Option.map_some, Nat.zero_add, time_eq g]
    · rw [List.getElem?_eq_none (by simpa using hi)]; rfl

theorem mem_deposits {lt : LightTable} {dv bin tmin : ℚ} (g : Geometry lt dv bin) {es : List Electron} {d : Deposit} :
    d ∈ deposits lt dv bin tmin es ↔ ∃ e ∈ es, ∃ s < lt.nsens, (lt.values e.x e.y s).isSome ∧ ∃ k < lt.nz,
      d = ⟨s, ⌊(emission lt dv e k - tmin) / bin⌋, seen lt e s k⟩ := by
  unfold deposits
  simp only [List.mem_flatMap, List.mem_range]
  constructor
  · rintro ⟨e, he, s, hs, hd⟩
    rw [depositsAt_eq g] at hd
    split at hd
    · rename_i hv
      obtain ⟨k, hk, rfl⟩ := List.mem_map.1 hd
      exact ⟨e, he, s, hs, hv, k, List.mem_range.1 hk, rfl⟩
    · cases hd
  · rintro ⟨e, he, s, hs, hv, k, hk, rfl⟩
    refine ⟨e, he, s, hs, ?_⟩
    rw [depositsAt_eq g, if_pos hv]
    exact List.mem_map.2 ⟨k, List.mem_range.2 hk, rfl⟩

theorem sum_flatMap {α β : Type} (xs : List α) (f : α → List β) (g : β → ℚ) :
    ((xs.flatMap f).map g).sum = (xs.map fun x => ((f x).map g).sum).sum := by
  induction xs with
  | nil => rfl
  | cons x xs ih => simp [List.flatMap_cons, ih]

theorem sum_zero {α : Type} {xs : List α} {f : α → ℚ} (h : ∀ x ∈ xs, f x = 0) : (xs.map f).sum = 0 := by
  apply List.sum_eq_zero
  intro v hv
  obtain ⟨x, hx, rfl⟩ := List.mem_map.1 hv
  exact h x hx

/-- The sum over the deposits of a quantity that is zero outside one sensor. -/
theorem deposits_sum {lt : LightTable} {dv bin tmin : ℚ} (g : Geometry lt dv bin) (es : List Electron) {s : Nat} (hs : s < lt.nsens)
    (c : Int → Bool) :
    ((deposits lt dv bin tmin es).map fun d => if d.sensor = s ∧ c d.tindx = true then d.signal else 0).sum =
      (es.map fun e => ((List.range lt.nz).map fun k : Nat =>
        if c ⌊(emission lt dv e k - tmin) / bin⌋ = true then seen lt e s k else 0).sum).sum := by
  unfold deposits
  rw [sum_flatMap]
  congr 1
  apply List.map_congr_left
  intro e _
  rw [sum_flatMap]
  have hone : ∀ s' : Nat, ((depositsAt lt dv bin tmin e s').map fun d => if d.sensor = s ∧ c d.tindx = true then d.signal else 0).sum =
      if s' = s then ((List.range lt.nz).map fun k : Nat =>
        if c ⌊(emission lt dv e k - tmin) / bin⌋ = true then seen lt e s' k else 0).sum else 0 := by
    intro s'
    rw [depositsAt_eq g]
    by_cases hv : (lt.values e.x e.y s').isSome
    · rw [if_pos hv, List.map_map]
      by_cases hss : s' = s
      · rw [if_pos hss]
        congr 1
        apply List.map_congr_left
        intro k _
        simp [hss]
      · rw [if_neg hss]
        apply sum_zero
        intro k _
        simp [hss]
    · rw [if_neg hv]
      have hn : lt.values e.x e.y s' = none := by simpa using hv
      have : ∀ k : Nat, seen lt e s' k = 0 := by intro k; simp [seen, hn]
      simp [this]
  rw [List.map_congr_left (fun s' _ => hone s')]
  rw [Sampling.sum_ite_eq_range lt.nsens s, if_pos hs]

/-- **C45** (waveforms, before the smearing).  When every electron reaches the EL after the beginning of the waveform, each bin holds
exactly the light emitted during it. -/
theorem raw_bins {lt : LightTable} {dv bin : ℚ} (g : Geometry lt dv bin) (buffer tmin : ℚ) (es : List Electron) (ht : ∀ e ∈ es, tmin ≤ e.t) :
    ∃ w, rawWfs lt dv bin buffer tmin es = .ok w ∧ Shape lt.nsens (numBins buffer bin) w ∧
      ∀ s < lt.nsens, ∀ b < numBins buffer bin, (w.getD s []).getD b 0 =
        (es.map fun e => ((List.range lt.nz).map fun k : Nat => if InBin tmin bin b (emission lt dv e k) then seen lt e s k else 0).sum).sum := by
  have hpos : ∀ e ∈ es, ∀ k : Nat, 0 ≤ ⌊(emission lt dv e k - tmin) / bin⌋ := by
    intro e he k
    apply Int.floor_nonneg.2
    have h1 := g.dv
    have h2 := g.bin
    have h3 := g.gap
    have h4 := ht e he
    unfold emission
    have : 0 ≤ (k + 1 / 2) * (lt.elGap / lt.nz) / dv := by positivity
    apply div_nonneg _ h2.le
    linarith
  have hds : ∀ d ∈ deposits lt dv bin tmin es, d.sensor < lt.nsens ∧ -((numBins buffer bin : Nat) : Int) ≤ d.tindx := by
    intro d hd
    obtain ⟨e, he, s, hs, _, k, hk, rfl⟩ := (mem_deposits g).1 hd
    have := hpos e he k
    exact ⟨hs, by simp only; omega⟩
  obtain ⟨w, h1, h2, h3⟩ := foldDeposits_spec _ (shape_zero lt.nsens (numBins buffer bin)) hds
  refine ⟨w, h1, h2, ?_⟩
  intro s hs b hb
  rw [h3]
  have hz : ((List.replicate lt.nsens (List.replicate (numBins buffer bin) (0 : ℚ))).getD s []).getD b 0 = 0 := by
    simp [List.getElem?_replicate, hs, hb]
  rw [hz, zero_add]
  rw [show ((deposits lt dv bin tmin es).map fun d => if d.sensor = s ∧ landing (numBins buffer bin) d.tindx = some b then d.signal else 0) =
    (deposits lt dv bin tmin es).map fun d => if d.sensor = s ∧ (fun t : Int => decide (landing (numBins buffer bin) t = some b)) d.tindx = true then d.signal else 0 from
    List.map_congr_left fun d _ => by simp]
  rw [deposits_sum g es hs (fun t : Int => decide (landing (numBins buffer bin) t = some b))]
  congr 1
  apply List.map_congr_left
  intro e he
  congr 1
  apply List.map_congr_left
  intro k _
  have hp := hpos e he k
  have hiff : (decide (landing (numBins buffer bin) ⌊(emission lt dv e k - tmin) / bin⌋ = some b) = true) ↔ InBin tmin bin b (emission lt dv e k) := by
    rw [decide_eq_true_iff, InBin_iff g.bin]
    generalize ⌊(emission lt dv e k - tmin) / bin⌋ = t at hp ⊢
    unfold landing
    by_cases h5 : ((numBins buffer bin : Nat) : Int) ≤ t
    · rw [if_pos h5]
      constructor
      · intro h; cases h
      · intro h; omega
    · rw [if_neg h5, if_pos hp]
      constructor
      · intro h; have := Option.some.inj h; omega
      · intro h; congr 1; omega
  by_cases hb' : InBin tmin bin b (emission lt dv e k)
  · rw [if_pos (hiff.2 hb'), if_pos hb']
  · rw [if_neg (fun h => hb' (hiff.1 h)), if_neg hb']

end Verif.Detsim
