import Verif.Props.Buffers
import Verif.Lemmas.Hist
import Mathlib.Data.List.Nodup
/-!
# Properties of the binning of the sensor response, of the event numbers and of the sensor order (C37, C51, C52)
-/
namespace Verif.Buffers
open Verif.Peaks Verif.Voxels

/-! ### Event numbers -/

theorem writeLoop_spec (run nexus : Nat) : ∀ (xs : List (ℚ × Mat × Mat)) (t : Tables) (number : Nat),
    writeLoop run nexus t number xs =
      ⟨t.events ++ (List.range xs.length).map (fun i => (run, number + i, (xs.map (·.1)).getD i 0)),
       t.eventMap ++ (List.range xs.length).map (fun i => (number + i, nexus)),
       t.pmtrd ++ xs.map (·.2.1), t.sipmrd ++ xs.map (·.2.2)⟩ := by
  intro xs
  induction xs with
  | nil => intro t number; simp [writeLoop]
  | cons x xs ih =>
    intro t number
    obtain ⟨ts, eng, trk⟩ := x
    simp only [writeLoop, ih, writeOne, List.length_cons, List.range_succ_eq_map, List.map_cons, List.map_map, List.append_assoc,
      List.cons_append, List.nil_append, Nat.add_zero, Tables.mk.injEq, List.append_cancel_left_eq, List.cons.injEq]
    refine ⟨⟨by simp, ?_⟩, ⟨trivial, ?_⟩, by simp, by simp⟩
    · apply List.map_congr_left; intro i _; simp [Function.comp]; omega
    · apply List.map_congr_left; intro i _; simp [Function.comp]; omega

/-- **C37** What one call writes: one row per trigger in each of the four tables, the `i`-th trigger with event number
`nexus * max_subevt + i`. -/
theorem writeBuffers_spec (run maxSub : Nat) (t : Tables) (nexus : Nat) (times : List ℚ) (bufs : List (Mat × Mat))
    (hl : times.length = bufs.length) :
    writeBuffers run maxSub t nexus times bufs =
      ⟨t.events ++ (List.range times.length).map (fun i => (run, nexus * maxSub + i, times.getD i 0)),
       t.eventMap ++ (List.range times.length).map (fun i => (nexus * maxSub + i, nexus)),
       t.pmtrd ++ bufs.map (·.1), t.sipmrd ++ bufs.map (·.2)⟩ := by
  have e1 : (times.zip bufs).length = times.length := by simp [List.length_zip, hl]
  have e2 : (times.zip bufs).map (·.1) = times := List.map_fst_zip (by omega)
  have e3 : (times.zip bufs).map (·.2) = bufs := List.map_snd_zip (by omega)
  have e4 : (times.zip bufs).map (·.2.1) = bufs.map (·.1) := by
    rw [← e3, List.map_map]; simp [Function.comp_def, e3]
  have e5 : (times.zip bufs).map (·.2.2) = bufs.map (·.2) := by
    rw [← e3, List.map_map]; simp [Function.comp_def, e3]
  simp only [writeBuffers, writeLoop_spec, e1, e2, e4, e5]

theorem foldl_append {α β : Type} (f : α → List β) (g : List β → α → List β) (h : ∀ acc x, g acc x = acc ++ f x) :
    ∀ (xs : List α) (acc : List β), xs.foldl g acc = acc ++ xs.flatMap f := by
  intro xs
  induction xs with
  | nil => simp
  | cons x xs ih => intro acc; simp [ih, h]

/-- The event map of all the events. -/
theorem writeAll_tables (run maxSub : Nat) (evts : List Evt) (hl : ∀ e ∈ evts, e.times.length = e.buffers.length) :
    writeAll run maxSub evts =
      ⟨evts.flatMap (fun e => (List.range e.times.length).map fun i => (run, e.nexus * maxSub + i, e.times.getD i 0)),
       evts.flatMap (fun e => (List.range e.times.length).map fun i => (e.nexus * maxSub + i, e.nexus)),
       evts.flatMap (fun e => e.buffers.map (·.1)), evts.flatMap (fun e => e.buffers.map (·.2))⟩ := by
  have key : ∀ (es : List Evt) (t : Tables), (∀ e ∈ es, e.times.length = e.buffers.length) →
      es.foldl (fun t e => writeBuffers run maxSub t e.nexus e.times e.buffers) t =
      ⟨t.events ++ es.flatMap (fun e => (List.range e.times.length).map fun i => (run, e.nexus * maxSub + i, e.times.getD i 0)),
       t.eventMap ++ es.flatMap (fun e => (List.range e.times.length).map fun i => (e.nexus * maxSub + i, e.nexus)),
       t.pmtrd ++ es.flatMap (fun e => e.buffers.map (·.1)), t.sipmrd ++ es.flatMap (fun e => e.buffers.map (·.2))⟩ := by
    intro es
    induction es with
    | nil => intro t _; simp
    | cons e es ih =>
      intro t h
      rw [List.foldl_cons, ih _ fun x hx => h x (List.mem_cons_of_mem _ hx), writeBuffers_spec _ _ _ _ _ _ (h e List.mem_cons_self)]
      simp
  rw [writeAll, key evts ⟨[], [], [], []⟩ hl]
  simp

/-- All the triggers of all the events, in the order in which they are written. -/
theorem writeAll_triggers (run maxSub : Nat) (evts : List Evt) (hl : ∀ e ∈ evts, e.times.length = e.buffers.length) :
    ∃ L : List (Evt × Nat), (∀ e i, (e, i) ∈ L ↔ e ∈ evts ∧ i < e.times.length) ∧
      (writeAll run maxSub evts).events = L.map (fun x => (run, x.1.nexus * maxSub + x.2, x.1.times.getD x.2 0)) ∧
      (writeAll run maxSub evts).eventMap = L.map (fun x => (x.1.nexus * maxSub + x.2, x.1.nexus)) ∧
      (writeAll run maxSub evts).pmtrd = L.map (fun x => (x.1.buffers.getD x.2 (⟨[], 0⟩, ⟨[], 0⟩)).1) ∧
      (writeAll run maxSub evts).sipmrd = L.map (fun x => (x.1.buffers.getD x.2 (⟨[], 0⟩, ⟨[], 0⟩)).2) := by
  refine ⟨evts.flatMap fun e => (List.range e.times.length).map fun i => (e, i), ?_, ?_⟩
  · intro e i
    simp only [List.mem_flatMap, List.mem_map, List.mem_range, Prod.mk.injEq]
    constructor
    · rintro ⟨_, he, _, hi, rfl, rfl⟩; exact ⟨he, hi⟩
    · rintro ⟨he, hi⟩; exact ⟨e, he, i, hi, rfl, rfl⟩
  · rw [writeAll_tables _ _ _ hl]
    simp only [List.map_flatMap, List.map_map, Function.comp_def]
    refine ⟨trivial, trivial, ?_, ?_⟩
    all_goals
      apply List.flatMap_congr
      intro e he
      rw [hl e he]
      apply List.ext_getElem?
      intro i
      rw [List.getElem?_map, List.getElem?_map]
      by_cases hi : i < e.buffers.length
      · rw [List.getElem?_range hi, List.getElem?_eq_getElem hi, Option.map_some, Option.map_some, List.getD_eq_getElem?_getD, List.getElem?_eq_getElem hi, Option.getD_some]
      · rw [List.getElem?_eq_none (by omega), List.getElem?_eq_none (by simp; omega)]; rfl

/-- **C37** The rows are in the order of the events, and of the triggers of each event: for events in the order of their numbers the numbers of the rows increase. -/
theorem rows_in_order (run maxSub : Nat) (evts : List Evt) (hl : ∀ e ∈ evts, e.times.length = e.buffers.length) (hmax : ∀ e ∈ evts, e.times.length ≤ maxSub)
    (hord : (evts.map (·.nexus)).Pairwise (· < ·)) : ((writeAll run maxSub evts).events.map (·.2.1)).Pairwise (· < ·) := by
  rw [writeAll_tables _ _ _ hl]
  simp only [List.map_flatMap, List.map_map, Function.comp_def]
  clear hl
  induction evts with
  | nil => simp
  | cons e es ih =>
    rw [List.map_cons, List.pairwise_cons] at hord
    rw [List.flatMap_cons, List.pairwise_append]
    refine ⟨?_, ih (fun x hx => hmax x (List.mem_cons_of_mem _ hx)) hord.2, ?_⟩
    · rw [List.pairwise_map]
      exact List.pairwise_lt_range.imp fun h => by omega
    · intro a ha b hb
      obtain ⟨i, hi, rfl⟩ := List.mem_map.1 ha
      obtain ⟨x, hx, hb⟩ := List.mem_flatMap.1 hb
      obtain ⟨j, _, rfl⟩ := List.mem_map.1 hb
      have h1 := hmax e List.mem_cons_self
      have h2 := List.mem_range.1 hi
      have h3 := hord.1 x.nexus (List.mem_map.2 ⟨x, hx, rfl⟩)
      have h4 : (e.nexus + 1) * maxSub ≤ x.nexus * maxSub := Nat.mul_le_mul_right _ h3
      rw [Nat.add_mul, Nat.one_mul] at h4
      omega

/-- **C37** Every trigger of an event has a row of the four tables, at the same position: its number and time, its event, and its two buffers. -/
theorem trigger_row (run maxSub : Nat) (evts : List Evt) (hl : ∀ e ∈ evts, e.times.length = e.buffers.length) {e : Evt} (he : e ∈ evts) {i : Nat} {t : ℚ} {b : Mat × Mat}
    (ht : e.times[i]? = some t) (hb : e.buffers[i]? = some b) :
    ∃ r : Nat, (writeAll run maxSub evts).events[r]? = some (run, e.nexus * maxSub + i, t) ∧ (writeAll run maxSub evts).eventMap[r]? = some (e.nexus * maxSub + i, e.nexus) ∧
      (writeAll run maxSub evts).pmtrd[r]? = some b.1 ∧ (writeAll run maxSub evts).sipmrd[r]? = some b.2 := by
  obtain ⟨L, hL, h1, h2, h3, h4⟩ := writeAll_triggers run maxSub evts hl
  obtain ⟨r, hr⟩ := List.mem_iff_getElem?.1 ((hL e i).2 ⟨he, (List.getElem?_eq_some_iff.1 ht).1⟩)
  refine ⟨r, ?_, ?_, ?_, ?_⟩
  · rw [h1, List.getElem?_map, hr, Option.map_some, List.getD_eq_getElem?_getD, ht]; rfl
  · rw [h2, List.getElem?_map, hr]; rfl
  · rw [h3, List.getElem?_map, hr, Option.map_some, List.getD_eq_getElem?_getD, hb]; rfl
  · rw [h4, List.getElem?_map, hr, Option.map_some, List.getD_eq_getElem?_getD, hb]; rfl

/-- **C37** And every row is that of a trigger of an event. -/
theorem row_trigger (run maxSub : Nat) (evts : List Evt) (hl : ∀ e ∈ evts, e.times.length = e.buffers.length) {r : Nat} (hr : r < (writeAll run maxSub evts).events.length) :
    ∃ e ∈ evts, ∃ i t b, e.times[i]? = some t ∧ e.buffers[i]? = some b ∧ (writeAll run maxSub evts).events[r]? = some (run, e.nexus * maxSub + i, t) ∧
      (writeAll run maxSub evts).eventMap[r]? = some (e.nexus * maxSub + i, e.nexus) ∧
      (writeAll run maxSub evts).pmtrd[r]? = some b.1 ∧ (writeAll run maxSub evts).sipmrd[r]? = some b.2 := by
  obtain ⟨L, hL, h1, h2, h3, h4⟩ := writeAll_triggers run maxSub evts hl
  rw [h1, List.length_map] at hr
  have hx := List.getElem?_eq_getElem hr
  generalize L[r] = x at hx
  obtain ⟨e, i⟩ := x
  obtain ⟨he, hi⟩ := (hL e i).1 (List.mem_of_getElem? hx)
  have hi' : i < e.buffers.length := by rw [← hl e he]; exact hi
  refine ⟨e, he, i, e.times[i], e.buffers[i], List.getElem?_eq_getElem hi, List.getElem?_eq_getElem hi', ?_, ?_, ?_, ?_⟩
  · rw [h1, List.getElem?_map, hx, Option.map_some, List.getD_eq_getElem?_getD, List.getElem?_eq_getElem hi]; rfl
  · rw [h2, List.getElem?_map, hx]; rfl
  · rw [h3, List.getElem?_map, hx, Option.map_some, List.getD_eq_getElem?_getD, List.getElem?_eq_getElem hi']; rfl
  · rw [h4, List.getElem?_map, hx, Option.map_some, List.getD_eq_getElem?_getD, List.getElem?_eq_getElem hi']; rfl

/-- **C37** The four tables stay aligned: as many rows in each of them, and the event number in row `j` of the events
table is the one in row `j` of the event map. -/
theorem tables_aligned (run maxSub : Nat) (evts : List Evt) (hl : ∀ e ∈ evts, e.times.length = e.buffers.length) :
    (writeAll run maxSub evts).events.map (·.2.1) = (writeAll run maxSub evts).eventMap.map (·.1) ∧
    (writeAll run maxSub evts).pmtrd.length = (writeAll run maxSub evts).events.length ∧
    (writeAll run maxSub evts).sipmrd.length = (writeAll run maxSub evts).events.length := by
  rw [writeAll_tables _ _ _ hl]
  refine ⟨?_, ?_, ?_⟩
  · simp [List.map_flatMap, Function.comp_def]
  · simp only [List.length_flatMap, List.length_map, List.length_range]
    congr 1; apply List.map_congr_left; intro e he; exact (hl e he).symm
  · simp only [List.length_flatMap, List.length_map, List.length_range]
    congr 1; apply List.map_congr_left; intro e he; exact (hl e he).symm

/-- **C37** Event numbers are unique over the whole output when the nexus events are different and none has more than
`max_subevt` triggers. -/
theorem event_numbers_unique (run maxSub : Nat) (evts : List Evt) (hl : ∀ e ∈ evts, e.times.length = e.buffers.length)
    (hmax : ∀ e ∈ evts, e.times.length ≤ maxSub) (hd : (evts.map (·.nexus)).Nodup) :
    ((writeAll run maxSub evts).events.map (·.2.1)).Nodup := by
  rw [(tables_aligned run maxSub evts hl).1, writeAll_tables _ _ _ hl]
  simp only [List.map_flatMap, List.map_map, Function.comp_def]
  rw [List.nodup_flatMap]
  refine ⟨fun e _ => List.Nodup.map_on (by intro a _ b _ h; omega) List.nodup_range, ?_⟩
  rw [List.Nodup, List.pairwise_map] at hd
  refine hd.imp_of_mem fun {a b} ha hb hne => ?_
  simp only [Function.onFun, List.disjoint_left, List.mem_map, List.mem_range]
  rintro x ⟨i, hi, rfl⟩ ⟨j, hj, h⟩
  have h1 := hmax a ha
  have h2 := hmax b hb
  have hm : 0 < maxSub := by omega
  have e1 : (a.nexus * maxSub + i) / maxSub = a.nexus := by
    rw [Nat.mul_comm, Nat.mul_add_div hm, Nat.div_eq_of_lt (by omega)]; rfl
  have e2 : (b.nexus * maxSub + j) / maxSub = b.nexus := by
    rw [Nat.mul_comm, Nat.mul_add_div hm, Nat.div_eq_of_lt (by omega)]; rfl
  rw [h] at e2
  exact hne (e1.symm.trans e2)

/-- **C37** The nexus event is the event number divided by `max_subevt`, in every row of the event map. -/
theorem nexus_event_recovered (run maxSub : Nat) (evts : List Evt) (hl : ∀ e ∈ evts, e.times.length = e.buffers.length)
    (hmax : ∀ e ∈ evts, e.times.length ≤ maxSub) :
    ∀ row ∈ (writeAll run maxSub evts).eventMap, row.2 = row.1 / maxSub := by
  rw [writeAll_tables _ _ _ hl]
  intro row hrow
  simp only [List.mem_flatMap, List.mem_map, List.mem_range] at hrow
  obtain ⟨e, he, i, hi, rfl⟩ := hrow
  have h1 := hmax e he
  have hm : 0 < maxSub := by omega
  rw [Nat.mul_comm, Nat.mul_add_div hm, Nat.div_eq_of_lt (by omega)]; rfl

def exM : Mat := ⟨[[1]], 1⟩
def exEvts : List Evt := [⟨7, [0, 100], [(exM, exM), (exM, exM)]⟩, ⟨3, [5], [(exM, exM)]⟩]
example : (∀ e ∈ exEvts, e.times.length = e.buffers.length) ∧ (∀ e ∈ exEvts, e.times.length ≤ 2) ∧ (exEvts.map (·.nexus)).Nodup ∧
    (writeAll 0 2 exEvts).eventMap = [(14, 7), (15, 7), (6, 3)] := by decide

/-- In the order of their numbers. -/
example : (exEvts.reverse.map (·.nexus)).Pairwise (· < ·) ∧ (writeAll 0 2 exEvts.reverse).eventMap = [(6, 3), (14, 7), (15, 7)] := by decide

theorem arith_triggers {S : Nat} : ∀ {trg : List Nat} {n : Nat}, trg.Pairwise (fun a b => a + S < b) → (∀ t ∈ trg, t < n) →
    trg ≠ [] → (trg.length - 1) * (S + 1) + trg.headD 0 < n := by
  intro trg
  induction trg with
  | nil => intro n _ _ h; exact absurd rfl h
  | cons a tl ih =>
    intro n hp hn _
    cases tl with
    | nil => simpa using hn a List.mem_cons_self
    | cons b tl =>
      have h1 := ih (n := n) (List.pairwise_cons.1 hp).2 (fun t ht => hn t (List.mem_cons_of_mem _ ht)) (by simp)
      have h2 := (List.pairwise_cons.1 hp).1 b List.mem_cons_self
      simp only [List.length_cons, List.headD_cons, Nat.add_sub_cancel] at h1 ⊢
      rw [Nat.add_mul]
      omega

/-- **C37** The number of triggers found in `n` bins of width `w` is at most `max_subevt = ⌈max_time / buffer_length⌉`
when the bins span at most one bin more than `max_time`. -/
theorem triggers_bounded (bufferLen maxTime w thr : ℚ) (wfs : Mat) (trg : List Nat) (hw : 0 < w) (hB : 0 < bufferLen)
    (hM : bufferLen ≤ maxTime) (hn : ((wfs.ncols : ℚ) - 1) * w ≤ maxTime)
    (h : signalFinder bufferLen w thr wfs = .ok trg) : trg.length ≤ maxSubevt maxTime bufferLen := by
  have hap := triggers_apart _ _ _ _ h
  obtain ⟨trg', h1, _, h3⟩ := findSignalStart_spec wfs thr ⌊bufferLen / w⌋.toNat
  obtain rfl : trg' = trg := by
    rw [signalFinder] at h; rw [h1] at h; injection h
  have hlt : ∀ t ∈ trg', t < wfs.ncols := fun t ht => ((h3 t).1 ht).1.1
  have hpos : 0 < maxTime := by linarith
  by_cases hne : trg' = []
  · subst hne; exact Nat.zero_le _
  have key := arith_triggers hap hlt hne
  have hS : bufferLen / w < (⌊bufferLen / w⌋.toNat : ℚ) + 1 := by
    have h5 : (0 : ℤ) ≤ ⌊bufferLen / w⌋ := Int.floor_nonneg.2 (by positivity)
    have : ((⌊bufferLen / w⌋.toNat : ℤ) : ℚ) = (⌊bufferLen / w⌋ : ℚ) := by rw [Int.toNat_of_nonneg h5]
    have h6 : ((⌊bufferLen / w⌋.toNat : ℕ) : ℚ) = (⌊bufferLen / w⌋ : ℚ) := by exact_mod_cast this
    rw [h6]; exact Int.lt_floor_add_one _
  have hk : 0 < trg'.length := List.length_pos_of_ne_nil hne
  unfold maxSubevt
  rw [Int.le_toNat (Int.ceil_nonneg (by positivity))]
  have hgoal : (((trg'.length - 1 : ℕ) : ℤ) : ℚ) < maxTime / bufferLen := by
    rw [lt_div_iff₀ hB]
    push_cast
    by_cases h1 : trg'.length = 1
    · simp [h1, hpos]
    · have hk1 : 0 < ((trg'.length - 1 : ℕ) : ℚ) := by exact_mod_cast (by omega)
      have key' : (trg'.length - 1) * (⌊bufferLen / w⌋.toNat + 1) + 1 ≤ wfs.ncols := by omega
      have kq : ((trg'.length - 1 : ℕ) : ℚ) * ((⌊bufferLen / w⌋.toNat : ℚ) + 1) ≤ (wfs.ncols : ℚ) - 1 := by
        have : (((trg'.length - 1) * (⌊bufferLen / w⌋.toNat + 1) + 1 : ℕ) : ℚ) ≤ (wfs.ncols : ℚ) := by exact_mod_cast key'
        push_cast at this ⊢; linarith
      have m1 : ((trg'.length - 1 : ℕ) : ℚ) * (bufferLen / w) < ((trg'.length - 1 : ℕ) : ℚ) * ((⌊bufferLen / w⌋.toNat : ℚ) + 1) :=
        mul_lt_mul_of_pos_left hS hk1
      have m2 : ((trg'.length - 1 : ℕ) : ℚ) * (bufferLen / w) * w < ((wfs.ncols : ℚ) - 1) * w :=
        mul_lt_mul_of_pos_right (by linarith) hw
      have m3 : ((trg'.length - 1 : ℕ) : ℚ) * (bufferLen / w) * w = ((trg'.length - 1 : ℕ) : ℚ) * bufferLen := by field_simp
      linarith
  have := Int.lt_ceil.2 hgoal
  omega

example : ∃ trg, signalFinder 2 1 5 ⟨[[9, 0, 0, 9, 0]], 5⟩ = .ok trg ∧ trg = [0, 3] ∧ ((5 : ℚ) - 1) * 1 ≤ 4 ∧ maxSubevt 4 2 = 2 :=
  ⟨_, by decide +kernel, rfl, by norm_num, by decide +kernel⟩

/-! ### Binning -/

theorem binEdges_eq (w tMin tMax maxBuffer : ℚ) (hw : 0 < w) :
    binEdges w tMin tMax maxBuffer = (List.range (⌈min tMax (tMin + maxBuffer) / w⌉ - ⌊tMin / w⌋ + 1).toNat).map
      fun i : Nat => ((⌊tMin / w⌋ + i : ℤ) : ℚ) * w := by
  simp only [binEdges, arange]
  have e : (⌈min tMax (tMin + maxBuffer) / w⌉ * w + w - ⌊tMin / w⌋ * w) / w =
      ((⌈min tMax (tMin + maxBuffer) / w⌉ - ⌊tMin / w⌋ + 1 : ℤ) : ℚ) := by
    push_cast; field_simp; ring
  rw [e, Int.ceil_intCast]
  apply List.map_congr_left
  intro i _
  push_cast; ring

/-- Number of bins. -/
def nBins (w tMin tMax maxBuffer : ℚ) : Nat := (⌈min tMax (tMin + maxBuffer) / w⌉ - ⌊tMin / w⌋).toNat

theorem binEdges_getElem? {w tMin tMax maxBuffer : ℚ} (hw : 0 < w) (hle : tMin ≤ min tMax (tMin + maxBuffer)) {i : Nat}
    (hi : i ≤ nBins w tMin tMax maxBuffer) :
    (binEdges w tMin tMax maxBuffer)[i]? = some (((⌊tMin / w⌋ + i : ℤ) : ℚ) * w) := by
  have h0 : ⌊tMin / w⌋ ≤ ⌈min tMax (tMin + maxBuffer) / w⌉ := by
    have : ⌊tMin / w⌋ ≤ ⌊min tMax (tMin + maxBuffer) / w⌋ := Int.floor_le_floor (by gcongr)
    exact this.trans (Int.floor_le_ceil _)
  rw [binEdges_eq _ _ _ _ hw, List.getElem?_map, List.getElem?_range (by simp only [nBins] at hi; omega)]; rfl

/-- **C37** In the binning of buffy the condition of `triggers_bounded` holds when `max_time` is a multiple of the bin
width: the bins of any response span at most one bin more than `max_time`. -/
theorem nBins_bounded (w tMin tMax : ℚ) (m : Nat) (hw : 0 < w) :
    ((nBins w tMin tMax (m * w) : ℚ) - 1) * w ≤ m * w := by
  have h1 : ⌈min tMax (tMin + m * w) / w⌉ ≤ ⌈tMin / w⌉ + m := by
    have : min tMax (tMin + m * w) / w ≤ tMin / w + (m : ℤ) := by
      rw [div_le_iff₀ hw, add_mul, div_mul_cancel₀ _ hw.ne']
      push_cast
      exact min_le_right _ _
    have h2 := Int.ceil_le_ceil this
    rwa [Int.ceil_add_intCast] at h2
  have h2 : ⌈tMin / w⌉ ≤ ⌊tMin / w⌋ + 1 := Int.ceil_le_floor_add_one _
  have h3 : nBins w tMin tMax (m * w) ≤ m + 1 := by simp only [nBins]; omega
  have h4 : (nBins w tMin tMax (m * w) : ℚ) ≤ m + 1 := by exact_mod_cast h3
  have : (nBins w tMin tMax (m * w) : ℚ) - 1 ≤ m := by linarith
  exact mul_le_mul_of_nonneg_right this hw.le

example : nBins 1 (1/2) 10 4 = 5 := by decide +kernel

/-- **C37** (finding) It may fail when `max_time` is not a multiple of the bin width: buffer length and maximum time of 1
with bins of 0.6, first signal at 0.5: three bins, two triggers, but `max_subevt` is 1, and the second trigger of event 0
gets the number of the first trigger of event 1. -/
theorem too_many_triggers : nBins (3/5) (1/2) (3/2) 1 = 3 ∧ signalFinder 1 (3/5) 5 ⟨[[9, 0, 9]], 3⟩ = .ok [0, 2] ∧
    maxSubevt 1 1 = 1 ∧ (writeAll 0 1 [⟨0, [0, 0], [(exM, exM), (exM, exM)]⟩, ⟨1, [0], [(exM, exM)]⟩]).eventMap = [(0, 0), (1, 0), (1, 1)] := by
  decide +kernel

/-- **C37** `check_max_time`: accepted values are multiples of a microsecond, and the result is at least the length of the
buffer, so `max_subevt` is at least one. -/
theorem checkMaxTime_spec (mus maxTime bufferLength : ℚ) (hmus : 0 < mus) :
    (∀ m, checkMaxTime mus maxTime bufferLength = .ok m → (∃ k : Int, maxTime = k * mus) ∧ m = max maxTime bufferLength) ∧
    ((∃ k : Int, maxTime = k * mus) → ∃ m, checkMaxTime mus maxTime bufferLength = .ok m) := by
  constructor
  · intro m h
    simp only [checkMaxTime] at h
    split at h
    · cases h
    · rename_i h1
      push Not at h1
      refine ⟨⟨⌊maxTime / mus⌋, by linarith⟩, ?_⟩
      split at h
      · rename_i h2; cases h; exact (max_eq_right h2.le).symm
      · rename_i h2; cases h; exact (max_eq_left (not_lt.1 h2)).symm
  · rintro ⟨k, rfl⟩
    simp only [checkMaxTime]
    have : (k : ℚ) * mus / mus = k := by field_simp
    rw [this, Int.floor_intCast, if_neg (by push Not; ring)]
    split
    · exact ⟨_, rfl⟩
    · exact ⟨_, rfl⟩

example : checkMaxTime 1000 10000 3000 = .ok 10000 ∧ checkMaxTime 1000 2000 3000 = .ok 3000 ∧ checkMaxTime 1000 2500 3000 = .error .valueError := by
  decide +kernel

theorem nBins_pos {w tMin tMax maxBuffer : ℚ} (hw : 0 < w) (hlt : tMin < min tMax (tMin + maxBuffer)) :
    0 < nBins w tMin tMax maxBuffer ∧ ⌊tMin / w⌋ + (nBins w tMin tMax maxBuffer : Int) = ⌈min tMax (tMin + maxBuffer) / w⌉ := by
  have h1 : (⌊tMin / w⌋ : ℚ) < min tMax (tMin + maxBuffer) / w :=
    (Int.floor_le _).trans_lt (div_lt_div_of_pos_right hlt hw)
  have h2 := Int.lt_ceil.2 h1
  simp only [nBins]
  omega

theorem binEdges_grid {w tMin tMax maxBuffer : ℚ} (hw : 0 < w) (hlt : tMin < min tMax (tMin + maxBuffer)) :
    binEdges w tMin tMax maxBuffer = grid (⌊tMin / w⌋ * w) w (nBins w tMin tMax maxBuffer) := by
  rw [binEdges_eq _ _ _ _ hw, grid]
  have e : (⌈min tMax (tMin + maxBuffer) / w⌉ - ⌊tMin / w⌋ + 1).toNat = nBins w tMin tMax maxBuffer + 1 := by
    have := nBins_pos hw hlt; omega
  rw [e]
  apply List.map_congr_left
  intro i _
  push_cast; ring

/-- **C52** The bins: their left edges are the multiples of the width from the one at or below `t_min` on, the last bin
ending at the first multiple at or after `min(t_max, t_min + max_buffer)`. -/
theorem bins_spec (sensors : List Resp) (w tMin tMax maxBuffer : ℚ) (hw : 0 < w) (hlt : tMin < min tMax (tMin + maxBuffer)) :
    let bins := (binSensors sensors w tMin tMax maxBuffer).1
    bins.length = nBins w tMin tMax maxBuffer ∧
    (∀ i < bins.length, bins[i]? = some ((⌊tMin / w⌋ + i) * w)) ∧
    bins.getD 0 0 ≤ tMin ∧ tMin < bins.getD 0 0 + w ∧
    min tMax (tMin + maxBuffer) ≤ bins.getD 0 0 + bins.length * w ∧
    bins.getD 0 0 + bins.length * w < min tMax (tMin + maxBuffer) + w := by
  obtain ⟨h0, h1⟩ := nBins_pos hw hlt
  simp only [binSensors]
  have hlen : (binEdges w tMin tMax maxBuffer).dropLast.length = nBins w tMin tMax maxBuffer := by
    rw [binEdges_grid hw hlt]; simp [grid]
  have hget : ∀ i < nBins w tMin tMax maxBuffer, (binEdges w tMin tMax maxBuffer).dropLast[i]? = some ((⌊tMin / w⌋ + i) * w) := by
    intro i hi
    rw [List.getElem?_dropLast, if_pos (by rw [List.length_dropLast] at hlen; omega), binEdges_getElem? hw hlt.le hi.le]
    push_cast; rfl
  have hd : (binEdges w tMin tMax maxBuffer).dropLast.getD 0 0 = ⌊tMin / w⌋ * w := by
    rw [List.getD_eq_getElem?_getD, hget 0 h0]; simp
  have hw' : ∀ q : ℚ, q / w * w = q := fun q => div_mul_cancel₀ q hw.ne'
  refine ⟨hlen, fun i hi => hget i (by omega), ?_, ?_, ?_, ?_⟩
  · rw [hd]; have := mul_le_mul_of_nonneg_right (Int.floor_le (tMin / w)) hw.le; rw [hw'] at this; exact this
  · rw [hd]; have := mul_lt_mul_of_pos_right (Int.lt_floor_add_one (tMin / w)) hw; rw [hw'] at this; linarith
  · rw [hd, hlen]
    have e : (⌊tMin / w⌋ : ℚ) * w + (nBins w tMin tMax maxBuffer : ℚ) * w = (⌈min tMax (tMin + maxBuffer) / w⌉ : ℚ) * w := by
      rw [← h1]; push_cast; ring
    rw [e]
    have := mul_le_mul_of_nonneg_right (Int.le_ceil (min tMax (tMin + maxBuffer) / w)) hw.le
    rwa [hw'] at this
  · rw [hd, hlen]
    have e : (⌊tMin / w⌋ : ℚ) * w + (nBins w tMin tMax maxBuffer : ℚ) * w = (⌈min tMax (tMin + maxBuffer) / w⌉ : ℚ) * w := by
      rw [← h1]; push_cast; ring
    rw [e]
    have := mul_lt_mul_of_pos_right (Int.ceil_lt_add_one (min tMax (tMin + maxBuffer) / w)) hw
    rw [add_mul, hw', one_mul] at this
    exact this

theorem mem_sensorIds {sensors : List Resp} {s : Nat} : s ∈ sensorIds sensors ↔ ∃ d ∈ sensors, d.sensor = s := by
  simp [sensorIds, List.mem_insertionSort, List.mem_dedup]

/-- **C52** One waveform per sensor with signal, in increasing order of sensor id. -/
theorem sensorIds_spec (sensors : List Resp) : (sensorIds sensors).Pairwise (· < ·) ∧ ∀ s, s ∈ sensorIds sensors ↔ ∃ d ∈ sensors, d.sensor = s := by
  refine ⟨?_, fun s => mem_sensorIds⟩
  have h1 : (sensorIds sensors).Pairwise (· ≤ ·) := List.pairwise_insertionSort _ _
  have h2 : (sensorIds sensors).Nodup := (List.perm_insertionSort _ _).nodup_iff.2 (List.nodup_dedup _)
  exact h1.imp₂ (fun _ _ h1 h2 => lt_of_le_of_ne h1 h2) h2

/-- **C52** The sample `k` of the waveform of a sensor is the sum of its charges with time in bin `k` (half-open, the last
bin including its right edge). -/
theorem waveform_sample (sensors : List Resp) (w tMin tMax maxBuffer : ℚ) (hw : 0 < w) (hlt : tMin < min tMax (tMin + maxBuffer))
    (i : Nat) (s : Nat) (wf : List ℚ) (hs : (binSensors sensors w tMin tMax maxBuffer).2.1[i]? = some s)
    (hwf : (binSensors sensors w tMin tMax maxBuffer).2.2[i]? = some wf) :
    wf.length = nBins w tMin tMax maxBuffer ∧
    ∀ k < wf.length, wf.getD k 0 = (sensors.map fun d =>
      if d.sensor = s ∧ (⌊tMin / w⌋ + k) * w ≤ d.time ∧ (d.time < (⌊tMin / w⌋ + k + 1) * w ∨
        (k + 1 = wf.length ∧ d.time = (⌊tMin / w⌋ + k + 1) * w)) then d.charge else 0).sum := by
  simp only [binSensors] at hs hwf
  rw [List.getElem?_map, hs, Option.map_some, Option.some.injEq] at hwf
  have hlen : wf.length = nBins w tMin tMax maxBuffer := by
    rw [← hwf, binEdges_grid hw hlt]; simp [weightedHistogram, grid]
  refine ⟨hlen, fun k hk => ?_⟩
  have hk' : k < nBins w tMin tMax maxBuffer := by omega
  rw [hlen, ← hwf, binEdges_grid hw hlt]
  simp only [weightedHistogram, List.getD_eq_getElem?_getD]
  rw [List.getElem?_map, List.getElem?_range (by simp [grid]; omega)]
  simp only [Option.map_some, Option.getD_some]
  rw [Hits.sum_filter_ite, Hits.sum_filter_ite]
  congr 1
  apply List.map_congr_left
  intro d _
  by_cases hd : d.sensor = s
  · simp only [hd, true_and, if_true]
    have e1 : (⌊tMin / w⌋ : ℚ) * w + k * w = (⌊tMin / w⌋ + k) * w := by ring
    have e2 : (⌊tMin / w⌋ : ℚ) * w + (k + 1) * w = (⌊tMin / w⌋ + k + 1) * w := by ring
    have e : histBin (grid (⌊tMin / w⌋ * w) w (nBins w tMin tMax maxBuffer)) d.time = some k ↔
        (⌊tMin / w⌋ + k) * w ≤ d.time ∧ (d.time < (⌊tMin / w⌋ + k + 1) * w ∨
        (k + 1 = nBins w tMin tMax maxBuffer ∧ d.time = (⌊tMin / w⌋ + k + 1) * w)) := by
      rw [histBin_grid hw, e1, e2]
      constructor
      · rintro ⟨_, h1, h2 | ⟨h2, h3⟩⟩
        · exact ⟨h1, Or.inl h2⟩
        · refine ⟨h1, Or.inr ⟨h2, ?_⟩⟩
          rw [h3, ← h2]; push_cast; ring
      · rintro ⟨h1, h2 | ⟨h2, h3⟩⟩
        · exact ⟨hk', h1, Or.inl h2⟩
        · refine ⟨hk', h1, Or.inr ⟨h2, ?_⟩⟩
          rw [h3, ← h2]; push_cast; ring
    simp only [e]
  · simp [hd]

/-- **C52** Charge is conserved: the waveform of a sensor adds up to all its charge at times from `t_min` to
`min(t_max, t_min + max_buffer)`, and charge more than one bin away from this range is left out. -/
theorem waveform_total (sensors : List Resp) (w tMin tMax maxBuffer : ℚ) (hw : 0 < w) (hlt : tMin < min tMax (tMin + maxBuffer))
    (i : Nat) (s : Nat) (wf : List ℚ) (hs : (binSensors sensors w tMin tMax maxBuffer).2.1[i]? = some s)
    (hwf : (binSensors sensors w tMin tMax maxBuffer).2.2[i]? = some wf) :
    wf.sum = ((sensors.filter fun d => d.sensor = s ∧ ⌊tMin / w⌋ * w ≤ d.time ∧
      d.time ≤ ⌈min tMax (tMin + maxBuffer) / w⌉ * w).map (·.charge)).sum := by
  obtain ⟨h0, h1⟩ := nBins_pos hw hlt
  simp only [binSensors] at hs hwf
  rw [List.getElem?_map, hs, Option.map_some, Option.some.injEq] at hwf
  rw [← hwf, binEdges_grid hw hlt]
  simp only [weightedHistogram]
  rw [show (grid (⌊tMin / w⌋ * w) w (nBins w tMin tMax maxBuffer)).length - 1 = nBins w tMin tMax maxBuffer by simp [grid], sum_bins]
  have e : (⌊tMin / w⌋ : ℚ) * w + (nBins w tMin tMax maxBuffer : ℚ) * w = (⌈min tMax (tMin + maxBuffer) / w⌉ : ℚ) * w := by
    rw [← h1]; push_cast; ring
  simp only [histBin_grid_some hw h0, e]
  rw [Hits.sum_filter_ite, Hits.sum_filter_ite]
  congr 1
  apply List.map_congr_left
  intro d _
  by_cases hd : d.sensor = s <;> simp [hd]

/-- **C52** In particular with all the times in the range nothing is lost. -/
theorem waveform_all (sensors : List Resp) (w tMin tMax maxBuffer : ℚ) (hw : 0 < w) (hlt : tMin < min tMax (tMin + maxBuffer))
    (i : Nat) (s : Nat) (wf : List ℚ) (hs : (binSensors sensors w tMin tMax maxBuffer).2.1[i]? = some s)
    (hwf : (binSensors sensors w tMin tMax maxBuffer).2.2[i]? = some wf)
    (hin : ∀ d ∈ sensors, tMin ≤ d.time ∧ d.time ≤ min tMax (tMin + maxBuffer)) :
    wf.sum = ((sensors.filter fun d => d.sensor = s).map (·.charge)).sum := by
  rw [waveform_total sensors w tMin tMax maxBuffer hw hlt i s wf hs hwf]
  congr 2
  apply List.filter_congr
  intro d hd
  have hw' : ∀ q : ℚ, q / w * w = q := fun q => div_mul_cancel₀ q hw.ne'
  have g1 := mul_le_mul_of_nonneg_right (Int.floor_le (tMin / w)) hw.le
  have g2 := mul_le_mul_of_nonneg_right (Int.le_ceil (min tMax (tMin + maxBuffer) / w)) hw.le
  rw [hw'] at g1 g2
  obtain ⟨h1, h2⟩ := hin d hd
  have h3 : ⌊tMin / w⌋ * w ≤ d.time := g1.trans h1
  have h4 : d.time ≤ ⌈min tMax (tMin + maxBuffer) / w⌉ * w := h2.trans g2
  simp [h3, h4]

def exResp : List Resp := [⟨5, 3/2, 10⟩, ⟨2, 7/2, 1⟩, ⟨5, 5/2, 20⟩, ⟨5, 13/2, 30⟩]
example : binSensors exResp 1 (3/2) (15/2) 3 = ([1, 2, 3, 4], [2, 5], [[0, 0, 1, 0], [10, 20, 0, 0]]) ∧
    binSensors exResp 1 (3/2) (15/2) 6 = ([1, 2, 3, 4, 5, 6, 7], [2, 5], [[0, 0, 1, 0, 0, 0, 0], [10, 20, 0, 0, 0, 30, 0]]) := by
  decide +kernel

/-- **C52** `first_and_last_times`: every time of both planes is in the range, and a whole bin fits in it. -/
theorem firstAndLast_spec (pmt sipm : List Resp) (pmtW sipmW : ℚ) (hp : 0 < pmtW) (hs : 0 < sipmW) (d : Resp) (hd : d ∈ pmt ∨ d ∈ sipm) :
    (firstAndLastTimes pmt sipm pmtW sipmW).1 ≤ d.time ∧ d.time < (firstAndLastTimes pmt sipm pmtW sipmW).2 := by
  have hw : 0 < min pmtW sipmW := lt_min hp hs
  simp only [firstAndLastTimes]
  rcases hd with hd | hd
  · have h1 := npMin_le (List.mem_map_of_mem (f := Resp.time) hd)
    have h2 := le_npMax (List.mem_map_of_mem (f := Resp.time) hd)
    exact ⟨(min_le_left _ _).trans h1, by linarith [le_max_left (npMax (pmt.map (·.time))) (npMax (sipm.map (·.time)))]⟩
  · have h1 := npMin_le (List.mem_map_of_mem (f := Resp.time) hd)
    have h2 := le_npMax (List.mem_map_of_mem (f := Resp.time) hd)
    exact ⟨(min_le_right _ _).trans h1, by linarith [le_max_right (npMax (pmt.map (·.time))) (npMax (sipm.map (·.time)))]⟩

example : firstAndLastTimes exResp [⟨1000, 1/2, 1⟩] 1 2 = (1/2, 15/2) := by decide +kernel

/-! ### Sensor order -/

theorem sorted_eq_of_mem {xs ys : List Nat} (hx : xs.Pairwise (· < ·)) (hy : ys.Pairwise (· < ·)) (h : ∀ a, a ∈ xs ↔ a ∈ ys) : xs = ys := by
  induction xs generalizing ys with
  | nil =>
    cases ys with
    | nil => rfl
    | cons b ys => exact absurd ((h b).2 List.mem_cons_self) (by simp)
  | cons a xs ih =>
    cases ys with
    | nil => exact absurd ((h a).1 List.mem_cons_self) (by simp)
    | cons b ys =>
      rw [List.pairwise_cons] at hx hy
      have hab : a = b := by
        rcases List.mem_cons.1 ((h a).1 List.mem_cons_self) with h1 | h1
        · exact h1
        · rcases List.mem_cons.1 ((h b).2 List.mem_cons_self) with h2 | h2
          · exact h2.symm
          · have := hx.1 b h2; have := hy.1 a h1; omega
      subst hab
      rw [ih hx.2 hy.2]
      intro c
      constructor
      · intro hc
        rcases List.mem_cons.1 ((h c).1 (List.mem_cons_of_mem _ hc)) with rfl | h1
        · have := hx.1 c hc; omega
        · exact h1
      · intro hc
        rcases List.mem_cons.1 ((h c).2 (List.mem_cons_of_mem _ hc)) with rfl | h1
        · have := hy.1 c hc; omega
        · exact h1

theorem assignRows_length : ∀ (ps : List Nat) (rs sensors : List (List ℚ)), (assignRows sensors ps rs).length = sensors.length := by
  intro ps
  induction ps with
  | nil => intro rs s; simp [assignRows]
  | cons p ps ih =>
    intro rs s
    cases rs with
    | nil => rfl
    | cons r rs => simp [assignRows, ih]

theorem assignRows_spec : ∀ (ps : List Nat) (rs : List (List ℚ)) (sensors : List (List ℚ)), ps.Nodup → ps.length = rs.length →
    (∀ p ∈ ps, p < sensors.length) →
    (∀ (j : Nat) p r, ps[j]? = some p → rs[j]? = some r → (assignRows sensors ps rs)[p]? = some (r.map truncZ)) ∧
    (∀ q, q ∉ ps → (assignRows sensors ps rs)[q]? = sensors[q]?) := by
  intro ps
  induction ps with
  | nil => intro rs s _ _ _; exact ⟨by simp, by simp [assignRows]⟩
  | cons p ps ih =>
    intro rs s hn hl hb
    cases rs with
    | nil => simp at hl
    | cons r rs =>
      rw [List.nodup_cons] at hn
      obtain ⟨g1, g2⟩ := ih rs (s.set p (r.map truncZ)) hn.2 (by simpa using hl) (fun q hq => by simpa using hb q (List.mem_cons_of_mem _ hq))
      refine ⟨fun j q r' hq hr' => ?_, fun q hq => ?_⟩
      · cases j with
        | zero =>
          simp at hq hr'; subst hq hr'
          rw [assignRows, g2 p hn.1, List.getElem?_set_self (hb p List.mem_cons_self)]
        | succ j => exact g1 j q r' (by simpa using hq) (by simpa using hr')
      · rw [assignRows, g2 q (fun h => hq (List.mem_cons_of_mem _ h)), List.getElem?_set_ne]
        rintro rfl; exact hq List.mem_cons_self

theorem whereIdx_get {α : Type} (p : α → Bool) (xs : List α) : ∀ (j : Nat), ((whereIdx p xs)[j]?).bind (xs[·]?) = (xs.filter p)[j]? := by
  induction xs with
  | nil => intro j; simp [whereIdx_nil]
  | cons x xs ih =>
    intro j
    rw [whereIdx_cons]
    by_cases h : p x
    · simp only [h, if_true, List.filter_cons_of_pos, List.cons_append, List.nil_append]
      cases j with
      | zero => simp
      | succ j =>
        rw [List.getElem?_cons_succ, List.getElem?_cons_succ, ← ih j, List.getElem?_map]
        cases (whereIdx p xs)[j]? <;> simp
    · simp only [h, List.filter_cons, List.nil_append, if_false, Bool.false_eq_true]
      rw [← ih j, List.getElem?_map]
      cases (whereIdx p xs)[j]? <;> simp

/-- **C51** Sensor order.  With the sensors of the database and those of the response in increasing order of id, the
output has one row per sensor of the database: the waveform of that sensor if it is in the response, zeros otherwise. -/
theorem orderPlane_spec (db ids : List Nat) (resp : List (List ℚ)) (length : Nat) (hdb : db.Pairwise (· < ·)) (hids : ids.Pairwise (· < ·))
    (hsub : ∀ s ∈ ids, s ∈ db) (hl : ids.length = resp.length) (hr : ∀ r ∈ resp, r.length = length) :
    ∃ out, orderPlane db ids resp length = .ok out ∧ out.length = db.length ∧
      ∀ (p s : Nat), db[p]? = some s →
        (∀ (j : Nat) r, ids[j]? = some s → resp[j]? = some r → out[p]? = some (r.map truncZ)) ∧
        (s ∉ ids → out[p]? = some (List.replicate length 0)) := by
  have hfilter : db.filter (fun s => decide (s ∈ ids)) = ids := by
    apply sorted_eq_of_mem (hdb.filter _) hids
    intro a
    simp only [List.mem_filter, decide_eq_true_eq]
    exact ⟨fun h => h.2, fun h => ⟨hsub a h, h⟩⟩
  have hget := whereIdx_get (fun s => decide (s ∈ ids)) db
  rw [hfilter] at hget
  have hplt : ∀ p ∈ whereIdx (fun s => decide (s ∈ ids)) db, p < db.length := by
    intro p hp
    obtain ⟨x, h, _⟩ := whereIdx_mem.1 hp
    exact (List.getElem?_eq_some_iff.1 h).1
  have hpos : (whereIdx (fun s => decide (s ∈ ids)) db).length = ids.length := by
    apply le_antisymm
    · by_contra hc
      have h1 : ids.length < (whereIdx (fun s => decide (s ∈ ids)) db).length := by omega
      have h2 := hget ids.length
      rw [List.getElem?_eq_getElem h1, Option.bind_some, List.getElem?_eq_getElem (hplt _ (List.getElem_mem h1)),
        List.getElem?_eq_none (le_refl _)] at h2
      cases h2
    · by_contra hc
      have h1 : (whereIdx (fun s => decide (s ∈ ids)) db).length < ids.length := by omega
      have h2 := hget (whereIdx (fun s => decide (s ∈ ids)) db).length
      rw [List.getElem?_eq_none (le_refl _), List.getElem?_eq_getElem h1] at h2
      cases h2
  have hcond : ¬ ((whereIdx (fun s => decide (s ∈ ids)) db).length ≠ resp.length ∨ ∃ r ∈ resp, r.length ≠ length) := by
    rintro (h | ⟨r, h1, h2⟩)
    · exact h (hpos.trans hl)
    · exact h2 (hr r h1)
  obtain ⟨g1, g2⟩ := assignRows_spec (whereIdx (fun s => decide (s ∈ ids)) db) resp
    (List.replicate db.length (List.replicate length 0)) ((whereIdx_sorted _ _).imp (fun h => by omega)) (hpos.trans hl)
    (by simpa using hplt)
  refine ⟨_, by simp only [orderPlane]; rw [if_neg hcond], by simp [assignRows_length], ?_⟩
  intro p s hp
  have hpl : p < db.length := (List.getElem?_eq_some_iff.1 hp).1
  constructor
  · intro j r hj hr'
    have h2 := hget j
    rw [hj] at h2
    cases h3 : (whereIdx (fun s => decide (s ∈ ids)) db)[j]? with
    | none => rw [h3] at h2; cases h2
    | some q =>
      rw [h3, Option.bind_some] at h2
      have hq : q < db.length := (List.getElem?_eq_some_iff.1 h2).1
      have : q = p := by
        have hnd : db.Nodup := hdb.imp (fun h => by omega)
        rw [List.getElem?_eq_getElem hq] at h2
        rw [List.getElem?_eq_getElem hpl] at hp
        have e : db[q] = db[p] := by injection h2 with h2; injection hp with hp; rw [h2, hp]
        exact (List.Nodup.getElem_inj_iff hnd).1 e
      subst this
      exact g1 j q r h3 hr'
  · intro hns
    rw [g2 p]
    · simp [List.getElem?_replicate, hpl]
    · intro hm
      obtain ⟨x, h1, h2⟩ := whereIdx_mem.1 hm
      rw [hp] at h1; cases h1
      exact hns (by simpa using h2)

example : orderPlane [0, 1, 5, 7] [1, 7] [[3, 4], [8, 9]] 2 = .ok [[0, 0], [3, 4], [0, 0], [8, 9]] := by decide +kernel

/-- **C51** The ids of the binned response are in increasing order, as required, whatever the order of the response. -/
theorem response_sorted (sensors : List Resp) (w tMin tMax maxBuffer : ℚ) :
    (binSensors sensors w tMin tMax maxBuffer).2.1.Pairwise (· < ·) := (sensorIds_spec sensors).1

/-- **C51** (finding) The order of the database matters: if it were not increasing, waveforms would be given to the wrong
sensors (here sensors 7 and 1 exchange their waveforms). -/
theorem unsorted_db_swaps : orderPlane [7, 1] [1, 7] [[3], [8]] 1 = .ok [[3], [8]] := by decide +kernel

/-- **C51** (finding) Fractional charges are truncated. -/
theorem fractional_charge_truncated : orderPlane [0] [0] [[7/2, -(7/2)]] 2 = .ok [[3, -3]] := by decide +kernel

/-- **C37** The times of the triggers: the time of the event plus the start of the bin, one per trigger. -/
theorem triggerTimes_spec (triggers : List Nat) (eventTime : ℚ) (bins : List ℚ) (h : ∀ t ∈ triggers, t < bins.length) :
    ∃ ts, triggerTimes triggers eventTime bins = .ok ts ∧ ts.length = triggers.length ∧
      ∀ (i t : Nat), triggers[i]? = some t → ts[i]? = some (eventTime + bins.getD t 0) := by
  obtain ⟨ys, h1, h2, h3⟩ := npTake_ok bins triggers h
  refine ⟨ys.map (eventTime + ·), by simp [triggerTimes, h1, Except.map], by simp [h2], fun i t ht => ?_⟩
  rw [List.getElem?_map, h3 i t ht]
  have := h t (List.mem_of_getElem? ht)
  simp [this]

example : triggerTimes [0, 2] 100 [0, 1, 2] = .ok [100, 102] := by decide +kernel

end Verif.Buffers
