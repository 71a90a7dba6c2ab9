import Verif.Spec.KrEvent
import Verif.Lemmas.Lists
/-!
# Point-like events (property C42)
-/
namespace Verif.KrEvent
open Verif.PMaps

/-- The exceptions that are caught are exactly those of a reconstruction that fails. -/
theorem recoFail_iff (e : PyErr) : isXYRecoFail e = true ↔ RecoFailure e := by
  unfold RecoFailure
  cases e <;> simp [isXYRecoFail]


theorem item_ok {α : Type} {xs : List α} {i : Nat} {x : α} (h : xs[i]? = some x) : item xs i = .ok x := by simp [item, h]
theorem itemOf_ok {α : Type} {xs : Option (List α)} {l : List α} {i : Nat} {x : α} (h : xs = some l) (h' : l[i]? = some x) :
    itemOf xs i = .ok x := by subst h; simp [itemOf, item, h']
theorem toU16_ok {n : Nat} (h : n ≤ 65535) : toU16 (n : Int) = .ok n := by
  rw [toU16, if_pos ⟨by omega, by omega⟩]; simp

theorem toU16_bad {n : Int} (h : ¬ (0 ≤ n ∧ n ≤ 65535)) : toU16 n = .error (.other "OverflowError") := by rw [toU16, if_neg h]

/-- One row, given the values of all the columns. -/
theorem makeRow_ok {ev : KrEvent} {i j : Nat} (hf : Fits ev) (s1 : S1Attr → Val) (hs1 : ∀ a, (ev.s1 a)[i]? = some (s1 a))
    (s2 : S2Attr → Val) (hs2 : ∀ a, ∃ l, ev.s2 a = some l ∧ l[j]? = some (s2 a)) {n : Nat} (hn : ev.nsipm[j]? = some (n : Int))
    (hn' : n ≤ 65535) {ld lz : List Val} {dt z : Val} (hd : ev.dt[j]? = some ld) (hd' : ld[i]? = some dt) (hz : ev.z[j]? = some lz)
    (hz' : lz[i]? = some z) :
    makeRow ev i j = .ok ⟨ev.event, ev.time, peakNumber ev.nS1 i, peakNumber ev.nS2 j, ev.nS1, ev.nS2, s1, s2, n, dt, z⟩ := by
  have h1 : ∀ a, item (ev.s1 a) i = .ok (s1 a) := fun a => item_ok (hs1 a)
  have h2 : ∀ a, itemOf (ev.s2 a) j = .ok (s2 a) := fun a => by obtain ⟨l, hl, hl'⟩ := hs2 a; exact itemOf_ok hl hl'
  simp only [makeRow, h1, h2, toU16_ok hf.1, toU16_ok hf.2, item_ok hn, toU16_ok hn', item_ok hd, item_ok hd', item_ok hz, item_ok hz',
    bind, Except.bind, pure, Except.pure]
  congr 2
  · funext a; cases a <;> rfl
  · funext a; cases a <;> rfl

theorem storePairs_ok {ev : KrEvent} {f : Nat × Nat → Row} (ps : List (Nat × Nat)) (h : ∀ p ∈ ps, makeRow ev p.1 p.2 = .ok (f p)) :
    storePairs ev ps = (ps.map f, none) := by
  induction ps with
  | nil => rfl
  | cons p ps ih =>
    obtain ⟨i, j⟩ := p
    have h1 := h (i, j) (by simp)
    simp only at h1
    simp [storePairs, h1, ih fun q hq => h q (by simp [hq])]

/-- Position of a pair in the double loop. -/
theorem pairs_get (m n i j : Nat) (hi : i < m) (hj : j < n) :
    ((List.range m).flatMap fun i => (List.range n).map fun j => (i, j))[i * n + j]? = some (i, j) := by
  induction m with
  | zero => omega
  | succ m ih =>
    rw [List.range_succ, List.flatMap_append]
    have hlen : ((List.range m).flatMap fun i => (List.range n).map fun j => (i, j)).length = m * n := by simp
    rcases Nat.lt_succ_iff_lt_or_eq.1 hi with h | h
    · rw [List.getElem?_append_left]
      · exact ih h
      · rw [hlen]
        calc i * n + j < i * n + n := by omega
          _ = (i + 1) * n := by ring
          _ ≤ m * n := Nat.mul_le_mul_right _ h
    · subst h
      rw [List.getElem?_append_right (by rw [hlen]; omega), hlen]
      simp [hj]

theorem length_pairs (m n : Nat) : ((List.range m).flatMap fun i => (List.range n).map fun j => (i, j)).length = m * n := by simp

/-- Values of the columns of a row of a complete event. -/
theorem makeRow_complete {ev : KrEvent} (hc : Complete ev) (hf : Fits ev) (hs : SipmsOk ev) (hn : 0 < ev.nS2) {i j : Nat}
    (hi : i < max ev.nS1 1) (hj : j < ev.nS2) : ∃ r, makeRow (fillDefaults ev) i j = .ok r ∧ IsRowOf ev i j r := by
  have hs2 : ∀ a, ∃ v, ∃ l, ev.s2 a = some l ∧ l[j]? = some v := fun a => by
    obtain ⟨l, hl, hlen⟩ := hc.s2 a
    exact ⟨l[j], l, hl, List.getElem?_eq_getElem (by omega)⟩
  choose s2 hs2 using hs2
  have hnsj : j < ev.nsipm.length := by rw [hc.nsipm]; exact hj
  have hns := hs _ (List.getElem_mem hnsj)
  obtain ⟨n, hneq⟩ := Int.eq_ofNat_of_zero_le hns.1
  have hnget : ev.nsipm[j]? = some (n : Int) := by rw [List.getElem?_eq_getElem hnsj, hneq]
  have hn' : n ≤ 65535 := by have := hns.2; omega
  have hn0 : ¬ ev.nS2 = 0 := by omega
  have hfits : Fits (fillDefaults ev) := hf
  have hs2f : ∀ a, ∃ l, (fillDefaults ev).s2 a = some l ∧ l[j]? = some (s2 a) := fun a => by
    simpa [fillDefaults, fillS2, hn0] using hs2 a
  have hnum2 : peakNumber ev.nS2 j = j := by
    have := hf.2; simp only [peakNumber, if_neg hn0, PMapsIO.storedPeakNumber]; rw [if_neg (by omega)]
  by_cases h0 : ev.nS1 = 0
  · have hi0 : i = 0 := by rw [h0] at hi; simpa using hi
    subst hi0
    have hz : ∀ z, (fillZ ev z)[j]? = some [none] := fun z => by
      simp only [fillZ, h0, true_or, if_true]; rw [List.getElem?_replicate, if_pos (by omega)]; rfl
    refine ⟨_, makeRow_ok (i := 0) (j := j) hfits (fun _ => none) (fun a => by simp [fillDefaults, fillS1, h0]) s2 hs2f hnget hn'
      (hz ev.dt) (dt := none) (by simp) (hz ev.z) (z := none) (by simp), ?_⟩
    exact ⟨⟨rfl, rfl⟩, ⟨rfl, rfl⟩, fun h => absurd h0 (by omega), fun _ => ⟨by simp [fillDefaults, peakNumber, h0], fun _ => rfl, rfl, rfl⟩,
      ⟨hnum2, hs2, hnget⟩, fun h => absurd h0 (by omega)⟩
  · have hi1 : i < ev.nS1 := by omega
    have hs1 : ∀ a, (ev.s1 a)[i]? = some ((ev.s1 a).getD i none) := fun a => by
      have : i < (ev.s1 a).length := by rw [hc.s1]; exact hi1
      rw [List.getElem?_eq_getElem this, List.getD_eq_getElem _ _ this]
    have hget : ∀ z : List (List Val), (z.length = ev.nS2 ∧ ∀ l ∈ z, l.length = ev.nS1) → ∃ l v, z[j]? = some l ∧ l[i]? = some v := by
      rintro z ⟨h1, h2⟩
      have hjz : j < z.length := by omega
      have : i < z[j].length := by rw [h2 _ (List.getElem_mem hjz)]; exact hi1
      exact ⟨z[j], z[j][i], List.getElem?_eq_getElem hjz, List.getElem?_eq_getElem this⟩
    obtain ⟨ld, dt, hd, hd'⟩ := hget _ hc.dt
    obtain ⟨lz, z, hz, hz'⟩ := hget _ hc.z
    have hfill : ∀ z, fillZ ev z = z := fun z => by simp [fillZ, h0, hn0]
    refine ⟨_, makeRow_ok (i := i) (j := j) hfits (fun a => (ev.s1 a).getD i none) (fun a => by simpa [fillDefaults, fillS1, h0] using hs1 a) s2 hs2f
      hnget hn' (ld := ld) (lz := lz) (by simpa [fillDefaults, hfill] using hd) hd' (by simpa [fillDefaults, hfill] using hz) hz', ?_⟩
    refine ⟨⟨rfl, rfl⟩, ⟨rfl, rfl⟩, fun _ => ⟨?_, hs1⟩, fun h => absurd h h0, ⟨hnum2, hs2, hnget⟩, fun _ => ⟨⟨ld, hd, hd'⟩, lz, hz, hz'⟩⟩
    have := hf.1
    show peakNumber ev.nS1 i = i
    simp only [peakNumber, if_neg h0, PMapsIO.storedPeakNumber]; rw [if_neg (by omega)]

/-- **C42 (rows, partial)**: a complete event with at least one S2, whose numbers fit the columns, is stored in `max(nS1, 1) * nS2` rows, the row of the
pair `(i, j)` being number `i * nS2 + j`.  Missing for the full property: events without S2 (see `store_no_s2`) and S2s whose reconstruction failed (see
`store_failed_reco`), for both of which storing raises. -/
theorem store_rows_partial {ev : KrEvent} (hc : Complete ev) (hf : Fits ev) (hs : SipmsOk ev) (hn : 0 < ev.nS2) :
    ∃ rows, store ev = (rows, none) ∧ rows.length = max ev.nS1 1 * ev.nS2 ∧
      ∀ i < max ev.nS1 1, ∀ j < ev.nS2, ∃ r, rows[i * ev.nS2 + j]? = some r ∧ IsRowOf ev i j r := by
  have key : ∀ p : Nat × Nat, p.1 < max ev.nS1 1 ∧ p.2 < ev.nS2 → ∃ r, makeRow (fillDefaults ev) p.1 p.2 = .ok r ∧ IsRowOf ev p.1 p.2 r :=
    fun p hp => makeRow_complete hc hf hs hn hp.1 hp.2
  have hmax : max ev.nS2 1 = ev.nS2 := by omega
  have key' : ∀ p : Nat × Nat, ∃ r, (p.1 < max ev.nS1 1 ∧ p.2 < ev.nS2) → makeRow (fillDefaults ev) p.1 p.2 = .ok r ∧ IsRowOf ev p.1 p.2 r := by
    intro p
    by_cases hp : p.1 < max ev.nS1 1 ∧ p.2 < ev.nS2
    · obtain ⟨r, hr⟩ := key p hp; exact ⟨r, fun _ => hr⟩
    · exact ⟨⟨0, 0, 0, 0, 0, 0, fun _ => none, fun _ => none, 0, none, none⟩, fun h => absurd h hp⟩
  choose f hf' using key'
  refine ⟨(pairs ev).map f, ?_, ?_, ?_⟩
  · apply storePairs_ok
    intro p hp
    simp only [pairs, hmax, List.mem_flatMap, List.mem_range, List.mem_map] at hp
    obtain ⟨i, hi, j, hj, rfl⟩ := hp
    exact (hf' (i, j) ⟨hi, hj⟩).1
  · simp [pairs, hmax]
  · intro i hi j hj
    refine ⟨f (i, j), ?_, (hf' (i, j) ⟨hi, hj⟩).2⟩
    rw [List.getElem?_map, pairs, hmax, pairs_get _ _ i j hi hj]; rfl

/-- **C42 (finding)**: an event without S2s is not stored: `TypeError`, because `qmax` is replaced by a number, and no row is written. -/
theorem store_no_s2 {ev : KrEvent} (hc : Complete ev) (hf : Fits ev) (hn : ev.nS2 = 0) : store ev = ([], some .typeError) := by
  have hp : ∃ rest, pairs ev = (0, 0) :: rest := by
    rw [pairs, hn]
    obtain ⟨k, hk⟩ : ∃ k, max ev.nS1 1 = k + 1 := ⟨max ev.nS1 1 - 1, by omega⟩
    refine ⟨(List.range k).flatMap fun i => [(i + 1, 0)], ?_⟩
    rw [hk, List.range_succ_eq_map]; simp [List.flatMap_map]
  obtain ⟨rest, hrest⟩ := hp
  have h1 : ∀ a, ∃ v, item (fillS1 ev a) 0 = .ok v := fun a => by
    by_cases h0 : ev.nS1 = 0
    · exact ⟨none, by simp [fillS1, h0, item]⟩
    · have : 0 < (ev.s1 a).length := by rw [hc.s1]; omega
      exact ⟨(ev.s1 a)[0], by simp only [fillS1, if_neg h0]; exact item_ok (List.getElem?_eq_getElem this)⟩
  choose s1 hs1 using h1
  have h2 : ∀ a, defaultedS2 a = true → itemOf (fillS2 ev a) 0 = .ok none := fun a ha => by
    cases a <;> simp_all [fillS2, defaultedS2, itemOf, item]
  have h3 : itemOf (fillS2 ev .qmax) 0 = .error .typeError := by simp [fillS2, hn, itemOf]
  have : makeRow (fillDefaults ev) 0 0 = .error .typeError := by
    simp only [makeRow, fillDefaults, hs1, toU16_ok hf.1, toU16_ok hf.2, h2 .w rfl, h2 .h rfl, h2 .e rfl, h2 .q rfl, h2 .t rfl, h3, bind, Except.bind]
  rw [store, hrest]
  simp [storePairs, this]

theorem storePairs_err {ev : KrEvent} {e : PyErr} (ps : List (Nat × Nat)) (hall : ∀ q ∈ ps, (∃ r, makeRow ev q.1 q.2 = .ok r) ∨ makeRow ev q.1 q.2 = .error e)
    {k : Nat} {p : Nat × Nat} (hget : ps[k]? = some p) (herr : makeRow ev p.1 p.2 = .error e) :
    ∃ rows, storePairs ev ps = (rows, some e) ∧ rows.length ≤ k := by
  induction ps generalizing k with
  | nil => simp at hget
  | cons q ps ih =>
    obtain ⟨i, j⟩ := q
    rcases hall (i, j) (by simp) with ⟨r, hr⟩ | hr
    · cases k with
      | zero => simp only [List.getElem?_cons_zero, Option.some.injEq] at hget; subst hget; rw [hr] at herr; cases herr
      | succ k =>
        obtain ⟨rows, h1, h2⟩ := ih (fun q hq => hall q (by simp [hq])) (by simpa using hget)
        exact ⟨r :: rows, by simp only [storePairs, hr, h1], by simpa using h2⟩
    · exact ⟨[], by simp only [storePairs, hr], by simp⟩

theorem makeRow_sipms {ev : KrEvent} (hc : Complete ev) (hf : Fits ev) (hn : 0 < ev.nS2) {i j : Nat} (hi : i < max ev.nS1 1) (hj : j < ev.nS2)
    {n : Int} (hget : ev.nsipm[j]? = some n) (hbad : ¬ (0 ≤ n ∧ n ≤ 65535)) : makeRow (fillDefaults ev) i j = .error (.other "OverflowError") := by
  have hn0 : ¬ ev.nS2 = 0 := by omega
  have h1 : ∀ a, ∃ v, item (fillS1 ev a) i = .ok v := fun a => by
    by_cases h0 : ev.nS1 = 0
    · have : i = 0 := by rw [h0] at hi; simpa using hi
      subst this
      exact ⟨none, by simp [fillS1, h0, item]⟩
    · have : i < (ev.s1 a).length := by rw [hc.s1]; omega
      exact ⟨(ev.s1 a)[i], by simp only [fillS1, if_neg h0]; exact item_ok (List.getElem?_eq_getElem this)⟩
  have h2 : ∀ a, ∃ v, itemOf (fillS2 ev a) j = .ok v := fun a => by
    obtain ⟨l, hl, hlen⟩ := hc.s2 a
    exact ⟨l[j], itemOf_ok (l := l) (by simp [fillS2, hn0, hl]) (List.getElem?_eq_getElem (by omega))⟩
  choose s1 hs1 using h1
  choose s2 hs2 using h2
  simp only [makeRow, fillDefaults, hs1, hs2, toU16_ok hf.1, toU16_ok hf.2, item_ok hget, toU16_bad hbad, bind, Except.bind]

/-- **C42 (finding)**: if the reconstruction of some S2 failed (its number of SiPMs is `NN = -999999`), storing the event raises and less rows than S2s are
written. -/
theorem store_failed_reco {ev : KrEvent} (hc : Complete ev) (hf : Fits ev) {j : Nat} (hj : ev.nsipm[j]? = some (-999999)) :
    ∃ rows, store ev = (rows, some (.other "OverflowError")) ∧ rows.length ≤ j ∧ j < ev.nS2 := by
  have hjl : j < ev.nS2 := by rw [← hc.nsipm]; exact (List.getElem?_eq_some_iff.1 hj).1
  have hn : 0 < ev.nS2 := by omega
  have hmax : max ev.nS2 1 = ev.nS2 := by omega
  have key : ∃ rows, store ev = (rows, some (.other "OverflowError")) ∧ rows.length ≤ j := by
   refine storePairs_err (ev := fillDefaults ev) (e := .other "OverflowError") (pairs ev) (k := j) (p := (0, j)) ?_ ?_ ?_
   · intro p hp
     simp only [pairs, hmax, List.mem_flatMap, List.mem_range, List.mem_map] at hp
     obtain ⟨i, hi, j', hj', rfl⟩ := hp
     have hlt : j' < ev.nsipm.length := by rw [hc.nsipm]; exact hj'
     by_cases hok : 0 ≤ ev.nsipm[j'] ∧ ev.nsipm[j'] ≤ 65535
     · left
       -- same event with the other numbers of SiPMs replaced: this row does not see them
       let ev' : KrEvent := { ev with nsipm := ev.nsipm.map fun n => if 0 ≤ n ∧ n ≤ 65535 then n else 0 }
       have hc' : Complete ev' := ⟨hc.s1, hc.s2, by simp [ev', hc.nsipm], hc.dt, hc.z⟩
       have hs' : SipmsOk ev' := by
         intro n hn
         simp only [ev', List.mem_map] at hn
         obtain ⟨m, _, rfl⟩ := hn
         split
         · assumption
         · omega
       obtain ⟨r, hr, _⟩ := makeRow_complete hc' (hf : Fits ev') hs' hn hi hj'
       refine ⟨r, ?_⟩
       rw [← hr]
       have hitem : item (fillDefaults ev').nsipm j' = item (fillDefaults ev).nsipm j' := by
         simp only [fillDefaults, ev', item, List.getElem?_map, List.getElem?_eq_getElem hlt, Option.map_some, if_pos hok]
       simp only [makeRow, hitem]
       rfl
     · right
       exact makeRow_sipms hc hf hn hi hj' (List.getElem?_eq_getElem hlt) hok
   · rw [pairs, hmax]
     simpa using pairs_get (max ev.nS1 1) ev.nS2 0 j (by omega) hjl
   · exact makeRow_sipms hc hf hn (by omega) hjl hj (by omega)
  obtain ⟨rows, h1, h2⟩ := key
  exact ⟨rows, h1, h2, hjl⟩

/-! ### Building the event -/

theorem addS1s_spec (l : List (Bool × Peak)) {ev ev' : KrEvent} (h : addS1s ev l = .ok ev') :
    ∃ vs : List (S1Attr → Val), List.Forall₂ S1Values ((l.filter fun x => x.1).map Prod.snd) vs ∧
      ev' = { ev with nS1 := ev.nS1 + vs.length, s1 := fun a => ev.s1 a ++ vs.map (· a) } := by
  induction l generalizing ev with
  | nil =>
    simp only [addS1s, Except.ok.injEq] at h
    subst h
    exact ⟨[], by simp, by simp⟩
  | cons x l ih =>
    obtain ⟨passed, p⟩ := x
    cases passed with
    | false => simpa using ih (by simpa [addS1s] using h)
    | true =>
      simp only [addS1s, Bool.not_true, Bool.false_eq_true, if_false] at h
      cases ha : addS1 ev p with
      | error e => simp [ha] at h
      | ok ev1 =>
        simp only [ha] at h
        obtain ⟨vs, hvs, rfl⟩ := ih h
        unfold addS1 at ha
        cases hh : p.height with
        | error e => simp [hh] at ha
        | ok ht =>
          cases htm : p.timeAtMaxEnergy with
          | error e => simp [hh, htm] at ha
          | ok t =>
            simp only [hh, htm, Except.ok.injEq] at ha
            subst ha
            refine ⟨(fun a => some (match a with | .w => p.width | .h => ht | .e => p.totalEnergy | .t => t)) :: vs, ?_, ?_⟩
            · simp only [List.filter_cons, if_true, List.map_cons, List.forall₂_cons]
              exact ⟨⟨rfl, ⟨ht, hh, rfl⟩, rfl, t, htm, rfl⟩, hvs⟩
            · simp only [List.length_cons, List.map_cons, List.append_assoc, List.singleton_append]
              congr 1; omega

/-- What is appended to the event for one S2. -/
structure S2Record where
  reco : Option Cluster
  s2 : S2Attr → Val
  nsipm : Int
  dt : List Val
  z : List Val

/-- The record describes the S2, given the times of the S1s. -/
structure S2RecordOf (b : Builder) (nS1 : Nat) (t1s : List Val) (p : Peak) (v : S2Record) : Prop where
  reco : IsReco b p v.reco
  values : S2Values b p v.reco v.s2 v.nsipm
  found : v.reco ≠ none → ∃ t2, p.timeAtMaxEnergy = .ok t2 ∧ v.dt = t1s.map (Option.map (dtOf t2)) ∧ v.z = t1s.map (Option.map (zOf t2 b.driftV))
  failed : v.reco = none → v.dt = List.replicate nS1 (some NN) ∧ v.z = List.replicate nS1 (some NN)

theorem foldl_max_spec (xs : List ℚ) (x : ℚ) : xs.foldl max x ∈ x :: xs ∧ ∀ y ∈ x :: xs, y ≤ xs.foldl max x := by
  induction xs generalizing x with
  | nil => simp
  | cons z xs ih =>
    obtain ⟨h1, h2⟩ := ih (max x z)
    constructor
    · simp only [List.foldl_cons]
      rcases List.mem_cons.1 h1 with h | h
      · rw [h]; rcases max_choice x z with h' | h' <;> simp [h']
      · simp [h]
    · intro y hy
      simp only [List.foldl_cons]
      have hm := h2 (max x z) (by simp)
      rcases List.mem_cons.1 hy with rfl | hy
      · exact (le_max_left _ _).trans hm
      · rcases List.mem_cons.1 hy with rfl | hy
        · exact (le_max_right _ _).trans hm
        · exact h2 y (by simp [hy])

theorem addS2_spec {b : Builder} {ev ev' : KrEvent} {p : Peak} (h : addS2 b ev p = .ok ev') :
    ∃ v, S2RecordOf b ev.nS1 (ev.s1 .t) p v ∧
      ev' = { ev with nS2 := ev.nS2 + 1, s2 := fun a => (ev.s2 a).map (· ++ [v.s2 a]), nsipm := ev.nsipm ++ [v.nsipm], dt := ev.dt ++ [v.dt], z := ev.z ++ [v.z] } := by
  unfold addS2 at h
  cases hh : p.height with
  | error e => simp [hh, bind, Except.bind] at h
  | ok ht =>
  cases htm : p.timeAtMaxEnergy with
  | error e => simp [hh, htm, bind, Except.bind] at h
  | ok t =>
  cases hx : positions b.xys p.sipms with
  | error e => simp [hh, htm, hx, bind, Except.bind] at h
  | ok xys =>
  cases hq : b.charges p with
  | error e => simp [hh, htm, hx, hq, bind, Except.bind] at h
  | ok qs =>
  cases hr : recoS2 b ev p t xys qs with
  | error e => simp [hh, htm, hx, hq, hr, bind, Except.bind] at h
  | ok r =>
  cases qs with
  | nil => simp [hh, htm, hx, hq, hr, pyMax, bind, Except.bind] at h
  | cons q qs =>
  simp only [hh, htm, hx, hq, hr, pyMax, bind, Except.bind, pure, Except.pure, Except.ok.injEq] at h
  subst h
  have hmax := foldl_max_spec qs q
  unfold recoS2 at hr
  cases hreco : b.reco xys (q :: qs) with
  | error e =>
    simp only [hreco] at hr
    split at hr
    · rename_i hfail
      simp only [Except.ok.injEq] at hr
      subst hr
      refine ⟨⟨none, _, _, _, _⟩, ⟨.failed hx hq hreco ((recoFail_iff _).1 hfail), ?_, fun h => absurd rfl h, fun _ => ⟨rfl, rfl⟩⟩, rfl⟩
      refine ⟨rfl, ⟨ht, hh, rfl⟩, rfl, ⟨t, htm, rfl⟩, ⟨_, _, hq, hmax.1, hmax.2, rfl⟩, ?_, rfl⟩
      intro a ha
      simp only [List.mem_cons, List.not_mem_nil, or_false] at ha
      rcases ha with rfl | rfl | rfl | rfl | rfl | rfl | rfl | rfl <;> rfl
    · cases hr
  | ok cs =>
    cases cs with
    | nil => simp [hreco] at hr
    | cons c cs =>
      simp only [hreco, Except.ok.injEq] at hr
      subst hr
      refine ⟨⟨some c, _, _, _, _⟩, ⟨.found hx hq hreco, ?_, fun _ => ⟨t, htm, rfl, rfl⟩, fun h => by cases h⟩, rfl⟩
      exact ⟨rfl, ⟨ht, hh, rfl⟩, rfl, ⟨t, htm, rfl⟩, ⟨_, _, hq, hmax.1, hmax.2, rfl⟩, rfl, rfl, rfl, rfl, rfl, rfl, rfl, rfl, rfl⟩

theorem addS2s_spec {b : Builder} (l : List (Bool × Peak)) {ev ev' : KrEvent} (h : addS2s b ev l = .ok ev') :
    ∃ vs : List S2Record, List.Forall₂ (S2RecordOf b ev.nS1 (ev.s1 .t)) ((l.filter fun x => x.1).map Prod.snd) vs ∧
      ev' = { ev with nS2 := ev.nS2 + vs.length, s2 := fun a => (ev.s2 a).map (· ++ vs.map (·.s2 a)), nsipm := ev.nsipm ++ vs.map (·.nsipm)
                      dt := ev.dt ++ vs.map (·.dt), z := ev.z ++ vs.map (·.z) } := by
  induction l generalizing ev with
  | nil =>
    simp only [addS2s, Except.ok.injEq] at h
    subst h
    exact ⟨[], by simp, by simp⟩
  | cons x l ih =>
    obtain ⟨passed, p⟩ := x
    cases passed with
    | false => simpa using ih (by simpa [addS2s] using h)
    | true =>
      simp only [addS2s, Bool.not_true, Bool.false_eq_true, if_false] at h
      cases ha : addS2 b ev p with
      | error e => simp [ha] at h
      | ok ev1 =>
        simp only [ha] at h
        obtain ⟨v, hv, rfl⟩ := addS2_spec ha
        obtain ⟨vs, hvs, rfl⟩ := ih h
        refine ⟨v :: vs, ?_, ?_⟩
        · simp only [List.filter_cons, if_true, List.map_cons, List.forall₂_cons]
          exact ⟨hv, hvs⟩
        · simp only [List.length_cons, List.map_cons, List.append_assoc, List.singleton_append, Option.map_map, Function.comp_def]
          congr 1; omega

theorem forall₂_get {α β : Type} {R : α → β → Prop} {xs : List α} {ys : List β} (h : List.Forall₂ R xs ys) {i : Nat} {x : α} (hx : xs[i]? = some x) :
    ∃ y, ys[i]? = some y ∧ R x y := by
  induction h generalizing i with
  | nil => simp at hx
  | cons hR _ ih => cases i with
    | zero => simp only [List.getElem?_cons_zero, Option.some.injEq] at hx ⊢; subst hx; exact ⟨_, rfl, hR⟩
    | succ i => simpa using ih (by simpa using hx)

theorem forall₂_mem_right {α β : Type} {R : α → β → Prop} {xs : List α} {ys : List β} (h : List.Forall₂ R xs ys) {y : β} (hy : y ∈ ys) :
    ∃ x ∈ xs, R x y := by
  induction h with
  | nil => simp at hy
  | cons hR _ ih =>
    rcases List.mem_cons.1 hy with rfl | hy
    · exact ⟨_, by simp, hR⟩
    · obtain ⟨x, hx, hR'⟩ := ih hy; exact ⟨x, by simp [hx], hR'⟩

/-- **C42 (event)**: a point-like event has one entry per selected S1 and per selected S2, in the order of the peaks, with their quantities, and the drift time
and z of each pair. -/
theorem build_spec {b : Builder} {f1 f2 : List Bool} {s1s s2s : List Peak} {event : Int} {ts : ℚ} {ev : KrEvent}
    (h : build b f1 f2 s1s s2s event ts = .ok ev) :
    ev.event = event ∧ ev.time = ts / 1000 ∧ ev.nS1 = (selected f1 s1s).length ∧ ev.nS2 = (selected f2 s2s).length ∧ Complete ev ∧
    (∀ (i : Nat) p, (selected f1 s1s)[i]? = some p → ∃ v, S1Values p v ∧ ∀ a, (ev.s1 a)[i]? = some (v a)) ∧
    ∀ (j : Nat) p, (selected f2 s2s)[j]? = some p → ∃ reco v n, IsReco b p reco ∧ S2Values b p reco v n ∧
      (∀ a, ∃ l, ev.s2 a = some l ∧ l[j]? = some (v a)) ∧ ev.nsipm[j]? = some n ∧
      ∀ (i : Nat) p1, (selected f1 s1s)[i]? = some p1 → ∃ dt z, PairValues b p1 p reco dt z ∧
        (∃ l, ev.dt[j]? = some l ∧ l[i]? = some dt) ∧ ∃ l, ev.z[j]? = some l ∧ l[i]? = some z := by
  unfold build at h
  cases h1 : addS1s (KrEvent.new event (ts * (1 / 1000))) (f1.zip s1s) with
  | error e => rw [h1] at h; cases h
  | ok ev1 =>
    simp only [h1] at h
    obtain ⟨vs, hvs, rfl⟩ := addS1s_spec _ h1
    obtain ⟨ws, hws, rfl⟩ := addS2s_spec _ h
    change List.Forall₂ S1Values (selected f1 s1s) vs at hvs
    change List.Forall₂ _ (selected f2 s2s) ws at hws
    simp only [KrEvent.new, Nat.zero_add, List.nil_append, Option.map_some] at hws ⊢
    have hlen : ∀ w ∈ ws, w.dt.length = vs.length ∧ w.z.length = vs.length := by
      intro w hw
      obtain ⟨p, _, hp⟩ := forall₂_mem_right hws hw
      by_cases hr : w.reco = none
      · obtain ⟨h1, h2⟩ := hp.failed hr
        simp [h1, h2]
      · obtain ⟨t2, _, h1, h2⟩ := hp.found hr
        simp [h1, h2]
    refine ⟨trivial, by ring, hvs.length_eq.symm, hws.length_eq.symm, ⟨fun a => by simp, fun a => ⟨_, rfl, by simp⟩, by simp, ⟨by simp, ?_⟩, by simp, ?_⟩, ?_, ?_⟩
    · intro l hl
      obtain ⟨w, hw, rfl⟩ := List.mem_map.1 hl
      exact (hlen w hw).1
    · intro l hl
      obtain ⟨w, hw, rfl⟩ := List.mem_map.1 hl
      exact (hlen w hw).2
    · intro i p hp
      obtain ⟨v, hv, hv'⟩ := forall₂_get hvs hp
      exact ⟨v, hv', fun a => by simp [hv]⟩
    · intro j p hp
      obtain ⟨w, hw, hw'⟩ := forall₂_get hws hp
      refine ⟨w.reco, w.s2, w.nsipm, hw'.reco, hw'.values, fun a => ⟨_, rfl, by simp [hw]⟩, by simp [hw], ?_⟩
      intro i p1 hp1
      obtain ⟨v, hv, hv'⟩ := forall₂_get hvs hp1
      have hi : i < vs.length := (List.getElem?_eq_some_iff.1 hv).1
      obtain ⟨_, _, _, t1, ht1, hvt⟩ := hv'
      by_cases hr : w.reco = none
      · obtain ⟨h1, h2⟩ := hw'.failed hr
        refine ⟨some NN, some NN, ?_, ⟨w.dt, by simp [hw], ?_⟩, w.z, by simp [hw], ?_⟩
        · rw [hr]; exact ⟨rfl, rfl⟩
        · rw [h1, List.getElem?_replicate, if_pos hi]
        · rw [h2, List.getElem?_replicate, if_pos hi]
      · obtain ⟨t2, ht2, h1, h2⟩ := hw'.found hr
        refine ⟨some (dtOf t2 t1), some (zOf t2 b.driftV t1), ?_, ⟨w.dt, by simp [hw], ?_⟩, w.z, by simp [hw], ?_⟩
        · obtain ⟨c, hc⟩ := Option.ne_none_iff_exists'.1 hr
          rw [hc]
          exact ⟨t1, t2, ht1, ht2, by simp only [dtOf, mus]; congr 1; ring, rfl⟩
        · rw [h1]; simp [hv, hvt]
        · rw [h2]; simp [hv, hvt]

/-- **C42 (end to end, partial)**: if the event is built, some S2 is selected and every selected S2 is reconstructed with a number of SiPMs that fits, the rows written
are the pairs of a selected S1 and a selected S2 (all S2s with a missing S1 if there is none), S1 major, each with the quantities of its peaks.  Missing for the full property: see
`store_rows_partial`. -/
theorem build_store_partial {b : Builder} {f1 f2 : List Bool} {s1s s2s : List Peak} {event : Int} {ts : ℚ} {ev : KrEvent}
    (h : build b f1 f2 s1s s2s event ts = .ok ev) (h2 : selected f2 s2s ≠ []) (hf1 : (selected f1 s1s).length ≤ 65535) (hf2 : (selected f2 s2s).length ≤ 65535)
    (hreco : ∀ p ∈ selected f2 s2s, ∀ r, IsReco b p r → ∃ c, r = some c ∧ 0 ≤ c.nsipm ∧ c.nsipm ≤ 65535) :
    ∃ rows, store ev = (rows, none) ∧ rows.length = max (selected f1 s1s).length 1 * (selected f2 s2s).length ∧
      ∀ (j : Nat) p2, (selected f2 s2s)[j]? = some p2 →
        ((selected f1 s1s) = [] → ∃ r c, rows[j]? = some r ∧ r.event = event ∧ r.s1Peak = 65535 ∧ r.s2Peak = j ∧ (∀ a, r.s1 a = none) ∧ r.dt = none ∧ r.z = none ∧
          IsReco b p2 (some c) ∧ S2Values b p2 (some c) r.s2 r.nsipm) ∧
        ∀ (i : Nat) p1, (selected f1 s1s)[i]? = some p1 → ∃ r c, rows[i * (selected f2 s2s).length + j]? = some r ∧ r.event = event ∧ r.s1Peak = i ∧ r.s2Peak = j ∧
          S1Values p1 r.s1 ∧ IsReco b p2 (some c) ∧ S2Values b p2 (some c) r.s2 r.nsipm ∧ PairValues b p1 p2 (some c) r.dt r.z := by
  obtain ⟨he, _, hn1, hn2, hc, hs1, hs2⟩ := build_spec h
  have hpos : 0 < ev.nS2 := by rw [hn2]; exact List.length_pos_iff.2 h2
  have hsip : SipmsOk ev := by
    intro n hn
    obtain ⟨j, hj, rfl⟩ := List.getElem_of_mem hn
    have hj' : j < (selected f2 s2s).length := by rw [← hn2, ← hc.nsipm]; exact hj
    obtain ⟨reco, v, n, hr, hv, _, hnn, _⟩ := hs2 j _ (List.getElem?_eq_getElem hj')
    obtain ⟨c, rfl, hc1, hc2⟩ := hreco _ (List.getElem_mem hj') _ hr
    have : ev.nsipm[j] = n := by rw [List.getElem?_eq_getElem hj] at hnn; simpa using hnn
    obtain ⟨_, _, _, _, _, _, _, _, _, _, _, _, _, hnc⟩ := hv
    rw [this, hnc]; exact ⟨hc1, hc2⟩
  obtain ⟨rows, hst, hlen, hrows⟩ := store_rows_partial hc ⟨by omega, by omega⟩ hsip hpos
  refine ⟨rows, hst, by rw [hlen, hn1, hn2], ?_⟩
  intro j p2 hp2
  have hj : j < ev.nS2 := by rw [hn2]; exact (List.getElem?_eq_some_iff.1 hp2).1
  obtain ⟨reco, v, n, hr, hv, hva, hnn, hpair⟩ := hs2 j _ hp2
  obtain ⟨c, rfl, _, _⟩ := hreco _ (List.mem_of_getElem? hp2) _ hr
  have hcols : ∀ i r, IsRowOf ev i j r → S2Values b p2 (some c) r.s2 r.nsipm := by
    intro i r hrow
    obtain ⟨_, hra, hrn⟩ := hrow.s2
    have h1 : r.s2 = v := by
      funext a
      obtain ⟨l, hl, hl'⟩ := hra a
      obtain ⟨l2, hl2, hl2'⟩ := hva a
      rw [hl] at hl2; cases hl2
      rw [hl'] at hl2'; simpa using hl2'
    have h2 : (r.nsipm : Int) = n := by rw [hrn] at hnn; simpa using hnn
    rw [h1, h2]; exact hv
  constructor
  · intro hnil
    have h0 : ev.nS1 = 0 := by rw [hn1, hnil]; rfl
    obtain ⟨r, hr1, hr2⟩ := hrows 0 (by omega) j hj
    refine ⟨r, c, by simpa using hr1, by rw [hr2.event.1, he], (hr2.noS1 h0).1, hr2.s2.1, (hr2.noS1 h0).2.1, (hr2.noS1 h0).2.2.1, (hr2.noS1 h0).2.2.2, hr, hcols 0 r hr2⟩
  · intro i p1 hp1
    have hi : i < ev.nS1 := by rw [hn1]; exact (List.getElem?_eq_some_iff.1 hp1).1
    obtain ⟨r, hr1, hr2⟩ := hrows i (by omega) j hj
    obtain ⟨w, hw, hwa⟩ := hs1 i p1 hp1
    have hs1eq : r.s1 = w := by
      funext a
      have := (hr2.s1 (by omega)).2 a
      rw [hwa a] at this; simpa using this.symm
    obtain ⟨dt, z, hpv, ⟨l1, hl1, hl1'⟩, l2, hl2, hl2'⟩ := hpair i p1 hp1
    obtain ⟨⟨m1, hm1, hm1'⟩, m2, hm2, hm2'⟩ := hr2.pair (by omega)
    rw [hl1] at hm1; cases hm1
    rw [hl2] at hm2; cases hm2
    have hdt : r.dt = dt := by rw [hl1'] at hm1'; simpa using hm1'.symm
    have hz : r.z = z := by rw [hl2'] at hm2'; simpa using hm2'.symm
    refine ⟨r, c, by rw [← hn2]; exact hr1, by rw [hr2.event.1, he], (hr2.s1 (by omega)).1, hr2.s2.1, hs1eq ▸ hw, hr, hcols i r hr2, ?_⟩
    rw [hdt, hz]; exact hpv

/-- **C42 (finding)**: a selected S2 without SiPMs, as read from a file, makes the construction of the event fail. -/
theorem build_no_sipms {b : Builder} {f2 : List Bool} {s2s : List Peak} {event : Int} {ts : ℚ} {p : Peak}
    (hp : p ∈ selected f2 s2s) (he : p.sipms = Responses.empty) : ∀ f1 s1s ev, build b f1 f2 s1s s2s event ts ≠ .ok ev := by
  intro f1 s1s ev h
  obtain ⟨_, _, _, _, _, _, hs2⟩ := build_spec h
  obtain ⟨j, hj, rfl⟩ := List.getElem_of_mem hp
  obtain ⟨reco, _, _, hr, _⟩ := hs2 j _ (List.getElem?_eq_getElem hj)
  cases hr with
  | found h1 => simp [positions, he] at h1
  | failed h1 => simp [positions, he] at h1

/-! ### Examples -/

/-- Two S1s and two S2s, all selected but the first S1. -/
def exPeak (t e : ℚ) : Peak := ⟨[t, t + 1], [1, 1], ⟨[0], ⟨[[e, e + 1]], 2⟩⟩, ⟨[1], ⟨[[2, 3]], 2⟩⟩⟩
def exBuilder : Builder :=
  ⟨2, [(0, 0), (10, 20)], fun p => .ok p.sipms.sumOverTimes, fun xys qs => match xys, qs with
    | (x, y) :: _, q :: _ => if q < 5 then .error (.other "SipmZeroCharge") else .ok [⟨1, q, x, y, 0, 0, x, y⟩]
    | _, _ => .error (.other "SipmEmptyList"), fun _ => 500⟩

/-- Run a check on the event built. -/
def okAnd (x : Except PyErr KrEvent) (f : KrEvent → Bool) : Bool := match x with
  | .ok ev => f ev
  | .error _ => false
theorem okAnd_exists {x : Except PyErr KrEvent} {f : KrEvent → Bool} (h : okAnd x f = true) : ∃ ev, x = .ok ev ∧ f ev = true := by
  cases x with
  | error e => cases h
  | ok ev => exact ⟨ev, rfl, h⟩

/-- the hypotheses of `build_store_partial` hold, and the rows are those expected -/
example : (∃ ev, build exBuilder [false, true, true] [true, true] [exPeak 0 1, exPeak 10 1, exPeak 20 1] [exPeak 1000 7, exPeak 2000 9] 5 3000 = .ok ev ∧
    ((store ev).2 == none && (store ev).1.map (fun r => (r.event, r.s1Peak, r.s2Peak, r.s1 .t, r.s2 .t, r.z)) ==
      [(5, 0, 0, some 11, some 1001, some 1980), (5, 0, 1, some 11, some 2001, some 3980),
       (5, 1, 0, some 21, some 1001, some 1960), (5, 1, 1, some 21, some 2001, some 3960)]) = true) := by
  exact okAnd_exists (by decide +kernel)

example : selected [true, true] [exPeak 1000 7, exPeak 2000 9] ≠ [] ∧
    ∀ p ∈ selected [true, true] [exPeak 1000 7, exPeak 2000 9], ∀ r, IsReco exBuilder p r → ∃ c, r = some c ∧ 0 ≤ c.nsipm ∧ c.nsipm ≤ 65535 := by
  refine ⟨by decide +kernel, ?_⟩
  have key : ∀ t e r, IsReco exBuilder (exPeak t e) r → ∃ c, r = some c ∧ 0 ≤ c.nsipm ∧ c.nsipm ≤ 65535 := by
    intro t e r hr
    have hx : positions exBuilder.xys (exPeak t e).sipms = .ok [(10, 20)] := by
      show positions exBuilder.xys ⟨[1], ⟨[[2, 3]], 2⟩⟩ = .ok [(10, 20)]
      decide +kernel
    have hq : exBuilder.charges (exPeak t e) = .ok [5] := by
      have : (exPeak t e).sipms.sumOverTimes = [5] := by
        show [([2, 3] : List ℚ).sum] = [5]
        norm_num
      simp [exBuilder, this]
    have hreco : exBuilder.reco [(10, 20)] [5] = .ok [⟨1, 5, 10, 20, 0, 0, 10, 20⟩] := by simp [exBuilder]
    cases hr with
    | found h1 h2 h3 =>
      rw [hx] at h1; cases h1
      rw [hq] at h2; cases h2
      rw [hreco] at h3; cases h3
      exact ⟨_, rfl, by decide, by decide⟩
    | failed h1 h2 h3 =>
      rw [hx] at h1; cases h1
      rw [hq] at h2; cases h2
      rw [hreco] at h3; cases h3
  intro p hp r hr
  have : p = exPeak 1000 7 ∨ p = exPeak 2000 9 := by simpa [selected] using hp
  rcases this with rfl | rfl
  · exact key _ _ r hr
  · exact key _ _ r hr

/-- an event without S1: one row per S2 with NaN -/
example : ∃ ev, build exBuilder [] [true, true] [] [exPeak 1000 7, exPeak 2000 9] 5 3000 = .ok ev ∧
    ((store ev).1.map (fun r => (r.s1Peak, r.s2Peak, r.s1 .t, r.s2 .e, r.z)) == [(65535, 0, none, some 15, none), (65535, 1, none, some 19, none)]) = true :=
  okAnd_exists (by decide +kernel)

/-- an event without S2s satisfies the hypotheses of `store_no_s2` -/
example : ∃ ev, build exBuilder [true] [] [exPeak 0 1] [] 5 0 = .ok ev ∧ ev.nS2 = 0 ∧ Complete ev ∧ Fits ev := by
  obtain ⟨ev, h, h'⟩ := okAnd_exists (x := build exBuilder [true] [] [exPeak 0 1] [] 5 0) (f := fun ev => ev.nS2 == 0 && ev.nS1 == 1) (by decide +kernel)
  simp only [Bool.and_eq_true, beq_iff_eq] at h'
  exact ⟨ev, h, h'.1, (build_spec h).2.2.2.2.1, by omega, by omega⟩

/-- a failed reconstruction is built but cannot be stored -/
example : ∃ ev, build exBuilder [true] [true] [exPeak 0 1] [⟨[5], [1], ⟨[0], ⟨[[7]], 1⟩⟩, ⟨[1], ⟨[[2]], 1⟩⟩⟩] 5 0 = .ok ev ∧
    (ev.nsipm[0]? == some (-999999) && (store ev).1.length == 0 && (store ev).2 == some (.other "OverflowError")) = true :=
  okAnd_exists (by decide +kernel)

/-- a selected S2 without SiPMs -/
example : (⟨[5], [1], ⟨[0], ⟨[[7]], 1⟩⟩, Responses.empty⟩ : Peak) ∈ selected [true] [⟨[5], [1], ⟨[0], ⟨[[7]], 1⟩⟩, Responses.empty⟩] := by
  simp [selected]

end Verif.KrEvent
