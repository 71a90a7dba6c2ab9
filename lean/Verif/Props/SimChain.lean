import Verif.Spec.SimChain
import Verif.Props.BuffyEvent
import Verif.Props.DetsimEvent
import Verif.Props.IreneRun
/-!
# C129: from the simulated buffers to diomira and hypathia, through the file of buffy or detsim
-/
namespace Verif.SimChain
open Verif.Buffers (Tables maxSubevt truncZ)
open Verif.Sources (wfFile wfItems fromFiles)
open Verif.IreneRun (Hypathia SoundHypathia SizedHypathia hypathiaRun)

/-! ### The values in the file -/

theorem convert_spec (x : ℚ) : Int16Of x (WfIO.convert 16 x : Int) := by
  refine ⟨WfIO.convert 16 x, (WfIO.truncate x + 32768) / 65536, rfl, ?_, ?_, ?_⟩
  · unfold WfIO.convert WfIO.wrap
    have := Int.emod_nonneg (WfIO.truncate x + 2 ^ (16 - 1)) (show (2 : Int) ^ 16 ≠ 0 by norm_num)
    norm_num at this ⊢
    omega
  · unfold WfIO.convert WfIO.wrap
    have := Int.emod_lt_of_pos (WfIO.truncate x + 2 ^ (16 - 1)) (show (0 : Int) < 2 ^ 16 by norm_num)
    norm_num at this ⊢
    omega
  · have ht : (if 0 ≤ x then ⌊x⌋ else ⌈x⌉) = WfIO.truncate x := rfl
    rw [ht]
    unfold WfIO.convert WfIO.wrap
    norm_num
    omega

theorem int16_unique {x y y' : ℚ} (h : Int16Of x y) (h' : Int16Of x y') : y = y' := by
  obtain ⟨k, q, rfl, a, b, c⟩ := h
  obtain ⟨k', q', rfl, a', b', c'⟩ := h'
  have : k = k' := by omega
  rw [this]

/-- C129. A whole number of photoelectrons below 32768 arrives as it is. -/
theorem int16_exact {x y : ℚ} (h : Int16Of x y) (n : Int) (hx : x = n) (h1 : -32768 ≤ n) (h2 : n < 32768) : y = x := by
  obtain ⟨k, q, rfl, a, b, c⟩ := h
  subst hx
  rw [Int.floor_intCast, Int.ceil_intCast, ite_self] at c
  have : k = n := by omega
  rw [this]

example : Int16Of 1234 1234 ∧ (1234 : ℚ) = ((1234 : Int) : ℚ) := ⟨⟨1234, 0, by norm_num, by norm_num, by norm_num, by decide +kernel⟩, by norm_num⟩

/-- C129, not as one would expect: 40000 photoelectrons in a sample become a negative number in the file, without any error. -/
theorem wraps : Int16Of 40000 (-25536) := ⟨-25536, 1, by norm_num, by norm_num, by norm_num, by decide +kernel⟩

theorem truncZ_trunc (x : ℚ) : (if 0 ≤ truncZ x then ⌊truncZ x⌋ else ⌈truncZ x⌉) = if 0 ≤ x then ⌊x⌋ else ⌈x⌉ := by
  unfold truncZ
  by_cases h : 0 ≤ x
  · simp only [if_pos h, Int.floor_intCast, Int.ceil_intCast, ite_self]
  · simp only [if_neg h, Int.floor_intCast, Int.ceil_intCast, ite_self]

theorem stored_spec (m : Mat) : Stored m (stored m) := by
  refine ⟨rfl, ?_⟩
  unfold stored
  dsimp only
  rw [List.forall₂_map_right_iff, List.forall₂_same]
  intro r _
  rw [List.forall₂_map_right_iff, List.forall₂_same]
  intro x _
  exact convert_spec x

/-! ### Reading the file -/

/-- A file as the writer leaves it: one buffer of each plane for each event, and the same run number. -/
structure Rows (t : Tables) (run : Nat) : Prop where
  pmts : t.pmtrd.length = t.events.length
  sipms : t.sipmrd.length = t.events.length
  run : ∀ e ∈ t.events, e.1 = run

/-- The items of a file. -/
def itemsOf (t : Tables) (run : Nat) : List (Sources.WfItem Mat Unit) :=
  wfItems (run : Int) (t.pmtrd.map stored) (t.sipmrd.map stored) (t.events.map fun e => ((e.2.1 : Int), storedTime e.2.2)) none none

theorem read_empty {t : Tables} (h : t.events = []) : wfFile .mcrd (simFile t) = ⟨[], some .indexError⟩ := by
  unfold wfFile simFile
  simp only [h, List.map_nil, Sources.getEventInfo, Sources.getRunNumber, Sources.firstRow, Sources.skipNode]
  simp [Sources.noSuchNode]

theorem read_file {t : Tables} {run : Nat} (hr : Rows t run) (h : t.events ≠ []) : wfFile .mcrd (simFile t) = ⟨itemsOf t run, none⟩ := by
  cases he : t.events with
  | nil => exact absurd he h
  | cons e es =>
    have h1 := hr.run e (by rw [he]; exact List.mem_cons_self)
    have hl := hr.pmts
    have hl2 := hr.sipms
    rw [he] at hl hl2
    unfold itemsOf wfFile simFile
    rw [he]
    simp only [Sources.getEventInfo, Sources.getRunNumber, Sources.firstRow, Sources.getPmtWfs, Sources.getSipmWfs, Sources.node, Sources.wfCheck, List.map_cons]
    simp only [List.length_map, List.length_cons] at hl hl2 ⊢
    simp [Sources.checkLengths, hl, hl2, h1]

theorem items_get {t : Tables} {run : Nat} (r : Nat) (i : Sources.WfItem Mat Unit) :
    (itemsOf t run)[r]? = some i ↔ ∃ a b e, t.pmtrd[r]? = some a ∧ t.sipmrd[r]? = some b ∧ t.events[r]? = some e ∧
      i = ⟨stored a, stored b, run, e.2.1, storedTime e.2.2, none, none⟩ := by
  unfold itemsOf wfItems Sources.zipRepeat
  simp only [List.map_map, List.getElem?_map, Option.map_eq_some_iff, List.getElem?_zip_eq_some, Prod.exists, Function.comp_apply]
  constructor
  · rintro ⟨a, b, n, ts, ⟨⟨a', ha, rfl⟩, ⟨b', hb, rfl⟩, ⟨x, y, z, he, hh⟩⟩, rfl⟩
    obtain ⟨rfl, rfl⟩ := Prod.mk.inj hh
    exact ⟨a', b', x, y, z, ha, hb, he, rfl⟩
  · rintro ⟨a, b, x, y, z, ha, hb, he, rfl⟩
    exact ⟨stored a, stored b, y, storedTime z, ⟨⟨a, ha, rfl⟩, ⟨b, hb, rfl⟩, ⟨x, y, z, he, rfl⟩⟩, rfl⟩

theorem items_length {t : Tables} {run : Nat} (hr : Rows t run) : (itemsOf t run).length = t.events.length := by
  unfold itemsOf wfItems Sources.zipRepeat
  simp [hr.pmts, hr.sipms]

theorem source_one (t : Tables) : nextSource [t] = wfFile .mcrd (simFile t) := by
  unfold nextSource Sources.wfFromFiles
  simp only [List.map_cons, List.map_nil, fromFiles]
  cases h : wfFile .mcrd (simFile t) with
  | mk items exc => cases exc <;> simp

/-- C129. The events of several files, none of them empty, come one file after the other. -/
theorem files_in_order {ts : List Tables} (h : ∀ t ∈ ts, t.events ≠ [] ∧ ∃ run, Rows t run) :
    (nextSource ts).exc = none ∧ (nextSource ts).items = ts.flatMap fun t => (nextSource [t]).items := by
  induction ts with
  | nil => exact ⟨rfl, rfl⟩
  | cons t ts ih =>
    obtain ⟨i1, i2⟩ := ih fun x hx => h x (List.mem_cons_of_mem _ hx)
    obtain ⟨h1, run, h2⟩ := h t List.mem_cons_self
    have hf := read_file h2 h1
    have hc : nextSource (t :: ts) = ⟨itemsOf t run ++ (nextSource ts).items, (nextSource ts).exc⟩ := by
      unfold nextSource Sources.wfFromFiles
      simp only [List.map_cons, fromFiles, hf]
    rw [List.flatMap_cons, source_one, hf, hc, i2]
    exact ⟨i1, rfl⟩

theorem numbers_of {t : Tables} {run : Nat} (hr : Rows t run) : (itemsOf t run).map (fun i => i.event) = (t.events.map (·.2.1)).map fun n : Nat => (n : Int) := by
    apply List.ext_getElem?
    intro r
    rw [List.getElem?_map, List.getElem?_map, List.getElem?_map]
    cases hi : (itemsOf t run)[r]? with
    | some i =>
      obtain ⟨a, b, e, _, _, he, rfl⟩ := (items_get r i).1 hi
      rw [he]
      rfl
    | none =>
      rw [List.getElem?_eq_none_iff, items_length hr] at hi
      rw [List.getElem?_eq_none_iff.2 hi]
      rfl

theorem events_of {t : Tables} {run : Nat} (hr : Rows t run) (hd : (t.events.map (·.2.1)).Nodup) : ((itemsOf t run).map fun i => i.event).Nodup := by
  rw [numbers_of hr]
  exact hd.map fun a b hab => by exact_mod_cast hab

theorem order_of {t : Tables} {run : Nat} (hr : Rows t run) (hd : (t.events.map (·.2.1)).Pairwise (· < ·)) : ((itemsOf t run).map fun i => i.event).Pairwise (· < ·) := by
  rw [numbers_of hr]
  exact List.pairwise_map.2 (hd.imp fun h => by exact_mod_cast h)

/-! ### buffy -/

theorem holds_stored {rows : List Buffers.Resp} {db : List Nat} {w last : ℚ} {start : Int} {len : Nat} {m : Mat} (h : BuffyEvent.Plane rows db w last start len m) :
    Holds rows db w last start len (stored m) := by
  obtain ⟨h1, h2, h3⟩ := h
  refine ⟨h1, by simp [stored, h2], fun i s hs => ?_⟩
  obtain ⟨row, r1, r2, r3⟩ := h3 i s hs
  refine ⟨row.map fun x => ((WfIO.convert 16 x : Int) : ℚ), by simp [stored, r1], by simp [r2], fun j y hy => ?_⟩
  rw [List.getElem?_map, Option.map_eq_some_iff] at hy
  obtain ⟨x, hx, rfl⟩ := hy
  have hj : j < len := r2 ▸ (List.getElem?_eq_some_iff.1 hx).1
  have := r3 j hj
  rw [List.getD_eq_getElem?_getD, hx, Option.getD_some] at this
  obtain ⟨k, q, c1, c2, c3, c4⟩ := convert_spec x
  refine ⟨k, q, c1, c2, c3, ?_⟩
  rw [← c4, this, truncZ_trunc]

theorem item_of {p : BuffyEvent.Pars} {m run : Nat} {t : Tables} {ev : BuffyEvent.Event} {r j : Nat} {n : Int} (h : BuffyEvent.TriggerRow p m run t ev r j n) :
    ∃ i, (itemsOf t run)[r]? = some i ∧ ItemOf p m run ev j n i := by
  obtain ⟨hn, time, b, h1, _, h3, h4, h5⟩ := h
  refine ⟨_, (items_get r _).2 ⟨_, _, _, h3, h4, h1, rfl⟩, ⟨hn, rfl, rfl, ?_, holds_stored h5.pmt, holds_stored h5.sipm, rfl, rfl⟩⟩
  dsimp only
  unfold storedTime WfIO.truncate
  rw [h5.time]
  split <;> rfl

theorem rows_run {p : BuffyEvent.Pars} {run : Nat} {evs : List BuffyEvent.Event} {m : Nat} {t : Tables} (h1 : t.pmtrd.length = t.events.length) (h2 : t.sipmrd.length = t.events.length)
    (h : ∀ r < t.events.length, ∃ ev ∈ evs, BuffyEvent.Seen p ev ∧ ∃ j n, BuffyEvent.TriggerRow p m run t ev r j n) : Rows t run := by
  refine ⟨h1, h2, fun e he => ?_⟩
  obtain ⟨r, hr⟩ := List.mem_iff_getElem?.1 he
  obtain ⟨ev, _, _, j, n, _, time, b, g, _⟩ := h r (List.getElem?_eq_some_iff.1 hr).1
  rw [hr] at g
  rw [Option.some.inj g]

/-- C129. The city after buffy (diomira, hypathia) gets one item for each trigger of each event with response in both planes, with its own number, time and buffers, and no other; all of them with
different numbers, increasing if those of the events do.  If no event has a trigger the file has no rows, and reading it is an `IndexError`. -/
theorem buffy_read {p : BuffyEvent.Pars} {m : Nat} (hp : p.Good m) (k : Nat) (hk : p.maxTime = k * p.pmtW) (hlen : p.bufferLen ≤ p.maxTime) (run : Nat) (evs : List BuffyEvent.Event)
    (hseen : ∀ ev ∈ evs, BuffyEvent.Seen p ev ∨ ev.pmt = [] ∨ ev.sipm = []) (hnum : (evs.map BuffyEvent.Event.number).Nodup) :
    ∃ t, BuffyEvent.run p run evs = .ok t ∧
      ((∃ ev ∈ evs, BuffyEvent.Seen p ev ∧ ∃ n, BuffyEvent.Trigger p ev n) →
        (nextSource [t]).exc = none ∧ (((nextSource [t]).items.map fun i => i.event).Nodup ∧
          ((evs.map BuffyEvent.Event.number).Pairwise (· < ·) → ((nextSource [t]).items.map fun i => i.event).Pairwise (· < ·))) ∧
        (∀ i ∈ (nextSource [t]).items, ∃ ev ∈ evs, BuffyEvent.Seen p ev ∧ ∃ j n, ItemOf p m run ev j n i) ∧
        ∀ ev ∈ evs, BuffyEvent.Seen p ev → ∀ ns : List Int, ns.Pairwise (· < ·) → (∀ n, n ∈ ns ↔ BuffyEvent.Trigger p ev n) → ∀ (j : Nat) n, ns[j]? = some n →
          ∃ i ∈ (nextSource [t]).items, ItemOf p m run ev j n i) ∧
      ((∀ ev ∈ evs, BuffyEvent.Seen p ev → ∀ n, ¬ BuffyEvent.Trigger p ev n) → nextSource [t] = ⟨[], some .indexError⟩) := by
  obtain ⟨t, ht, hd, _, hl1, hl2, _, hrow, htrg⟩ := BuffyEvent.run_spec hp k hk hlen run evs hseen hnum
  have hr := rows_run hl1 hl2 hrow
  refine ⟨t, ht, ?_, ?_⟩
  · rintro ⟨ev, hev, hs, n, hn⟩
    have hne : t.events ≠ [] := by
      intro he
      obtain ⟨ns, h1, h2, hout⟩ := BuffyEvent.event_spec hp hs
      obtain ⟨j, hj⟩ := List.mem_iff_getElem?.1 ((h2 n).2 hn)
      obtain ⟨r, _, time, b, g, _⟩ := htrg ev hev hs ns h1 h2 j n hj
      rw [he] at g
      simp at g
    rw [source_one, read_file hr hne]
    dsimp only
    refine ⟨rfl, ?_, ?_, ?_⟩
    · exact ⟨events_of hr hd.1, fun ho => order_of hr (hd.2 ho)⟩
    · intro i hi
      obtain ⟨r, hi⟩ := List.mem_iff_getElem?.1 hi
      have hlt : r < t.events.length := items_length hr ▸ (List.getElem?_eq_some_iff.1 hi).1
      obtain ⟨ev, hev, hs, j, n, htr⟩ := hrow r hlt
      obtain ⟨i', hi', h⟩ := item_of htr
      rw [hi] at hi'
      cases hi'
      exact ⟨ev, hev, hs, j, n, h⟩
    · intro ev hev hs ns h1 h2 j n hj
      obtain ⟨r, htr⟩ := htrg ev hev hs ns h1 h2 j n hj
      obtain ⟨i, hi, h⟩ := item_of htr
      exact ⟨i, List.mem_of_getElem? hi, h⟩
  · intro hno
    rw [source_one]
    refine read_empty ?_
    by_contra hne
    obtain ⟨ev, hev, hs, j, n, ⟨ns, _, h2, hj⟩, _⟩ := hrow 0 (List.length_pos_iff.2 hne)
    exact hno ev hev hs n ((h2 n).1 (List.mem_of_getElem? hj))

/-! ### detsim -/

theorem detsim_item {p : DetsimEvent.Pars} {m k run : Nat} {T : List (ℚ × ℚ × ℚ) → List (List ℚ)} {t : Tables} {d : DetsimEvent.Draws} {ev : DetsimEvent.Event} {r j n : Nat}
    (h : DetsimEvent.TriggerRow p m k run T t d ev r j n) :
    ∃ i pmt sipm, (itemsOf t run)[r]? = some i ∧ DetsimEvent.IsEvent p m k T d ev pmt sipm ∧ DetsimItem p m run ev pmt sipm j n i := by
  obtain ⟨pmt, sipm, he, hn, time, b, h1, _, h3, h4, h5⟩ := h
  have ht := h5.time
  subst ht
  refine ⟨_, pmt, sipm, (items_get r _).2 ⟨_, _, _, h3, h4, h1, rfl⟩, he, ⟨hn, rfl, rfl, ?_, b, h5, stored_spec _, stored_spec _⟩⟩
  dsimp only
  unfold storedTime WfIO.truncate
  split <;> rfl

/-- C129. The same for the city after detsim: one item for each trigger of each event with light, with its own number, time and buffers, and no other, all of them with different numbers; and an
`IndexError` if no row was written. -/
theorem detsim_read {p : DetsimEvent.Pars} {m k : Nat} {T : List (ℚ × ℚ × ℚ) → List (List ℚ)} (hp : p.Good m k T) (hlen : p.bufferLen ≤ p.maxTime) (run : Nat)
    (evs : List (DetsimEvent.Event × DetsimEvent.Draws)) (hv : ∀ x ∈ evs, DetsimEvent.Valid p x.2 x.1) (hnum : (evs.map (·.1.number)).Nodup) :
    ∃ t, DetsimEvent.run p run evs = .ok t ∧
      (t.events = [] → nextSource [t] = ⟨[], some .indexError⟩) ∧
      (t.events ≠ [] → (nextSource [t]).exc = none) ∧
      (((nextSource [t]).items.map fun i => i.event).Nodup ∧ ((evs.map (·.1.number)).Pairwise (· < ·) → ((nextSource [t]).items.map fun i => i.event).Pairwise (· < ·))) ∧
      (∀ i ∈ (nextSource [t]).items, ∃ x ∈ evs, ∃ pmt sipm j n, DetsimEvent.IsEvent p m k T x.2 x.1 pmt sipm ∧ DetsimItem p m run x.1 pmt sipm j n i) ∧
      ∀ x ∈ evs, DetsimEvent.event p x.2 x.1 = .ok .noActive ∨ DetsimEvent.event p x.2 x.1 = .ok .dark ∨
        ∃ pmt sipm, DetsimEvent.IsEvent p m k T x.2 x.1 pmt sipm ∧ ∀ ns : List Nat, ns.Pairwise (· < ·) → (∀ n, n ∈ ns ↔ DetsimEvent.Trigger p pmt n) → ∀ (j n : Nat), ns[j]? = some n →
          ∃ i ∈ (nextSource [t]).items, ∃ pmt' sipm', DetsimEvent.IsEvent p m k T x.2 x.1 pmt' sipm' ∧ DetsimItem p m run x.1 pmt' sipm' j n i := by
  obtain ⟨t, ht, hd, _, hl1, hl2, _, hrow, htrg⟩ := DetsimEvent.run_spec hp hlen run evs hv hnum
  have hr : Rows t run := by
    refine ⟨hl1, hl2, fun e he => ?_⟩
    obtain ⟨r, hr⟩ := List.mem_iff_getElem?.1 he
    obtain ⟨x, _, j, n, _, _, _, _, time, b, g, _⟩ := hrow r (List.getElem?_eq_some_iff.1 hr).1
    rw [hr] at g
    rw [Option.some.inj g]
  refine ⟨t, ht, fun he => by rw [source_one]; exact read_empty he, fun hne => by rw [source_one, read_file hr hne], ?_⟩
  have hitems : (nextSource [t]).items = itemsOf t run := by
    rw [source_one]
    by_cases he : t.events = []
    · rw [read_empty he]
      have := items_length hr
      rw [he] at this
      exact (List.eq_nil_of_length_eq_zero this).symm
    · rw [read_file hr he]
  rw [hitems]
  refine ⟨⟨events_of hr hd.1, fun ho => order_of hr (hd.2 ho)⟩, ?_, ?_⟩
  · intro i hi
    obtain ⟨r, hi⟩ := List.mem_iff_getElem?.1 hi
    have hlt : r < t.events.length := items_length hr ▸ (List.getElem?_eq_some_iff.1 hi).1
    obtain ⟨x, hx, j, n, htr⟩ := hrow r hlt
    obtain ⟨i', pmt, sipm, hi', h1, h2⟩ := detsim_item htr
    rw [hi] at hi'
    cases hi'
    exact ⟨x, hx, pmt, sipm, j, n, h1, h2⟩
  · intro x hx
    rcases htrg x hx with h | h | ⟨pmt, sipm, h1, h2⟩
    · exact Or.inl h
    · exact Or.inr (Or.inl h)
    · refine Or.inr (Or.inr ⟨pmt, sipm, h1, fun ns a b j n hj => ?_⟩)
      obtain ⟨r, htr⟩ := h2 ns a b j n hj
      obtain ⟨i, pmt', sipm', hi, h3, h4⟩ := detsim_item htr
      exact ⟨i, List.mem_of_getElem? hi, pmt', sipm', h3, h4⟩

/-! ### hypathia -/

/-- The simulation of the SiPMs gives waveforms of the length of the run for all the sensors. -/
def SimulatesSipms (c : Hypathia) (nSensors nSamples : Nat) : Prop :=
  ∀ wfs : List (List ℚ), wfs.length = nSensors → (∀ w ∈ wfs, w.length = nSamples) → ∃ sim, c.simSipm wfs = .ok sim ∧ sim.length = c.sipms.length ∧ ∀ w ∈ sim, w.length = c.nSipm

theorem holds_rows {rows : List Buffers.Resp} {db : List Nat} {w last : ℚ} {start : Int} {len : Nat} {m : Mat} (h : Holds rows db w last start len m) : ∀ r ∈ m.rows, r.length = len := by
  intro r hr
  obtain ⟨i, hi⟩ := List.mem_iff_getElem?.1 hr
  have hlt : i < db.length := h.2.1 ▸ (List.getElem?_eq_some_iff.1 hi).1
  obtain ⟨row, h1, h2, _⟩ := h.2.2 i _ (List.getElem?_eq_getElem hlt)
  rw [hi] at h1
  cases h1
  exact h2

/-- C129. hypathia processes the file of buffy to its end: each trigger has its row in the table of flags, and the PMaps found are read by the next city with the number and time of their trigger. -/
theorem buffy_to_hypathia {p : BuffyEvent.Pars} {m : Nat} (hp : p.Good m) (k : Nat) (hk : p.maxTime = k * p.pmtW) (hlen : p.bufferLen ≤ p.maxTime) (run : Nat) (evs : List BuffyEvent.Event)
    (hseen : ∀ ev ∈ evs, BuffyEvent.Seen p ev ∨ ev.pmt = [] ∨ ev.sipm = []) (hnum : (evs.map BuffyEvent.Event.number).Nodup)
    (htrg : ∃ ev ∈ evs, BuffyEvent.Seen p ev ∧ ∃ n, BuffyEvent.Trigger p ev n) {c : Hypathia} (hc : SoundHypathia c ⌊p.bufferLen / p.pmtW⌋.toNat) (hpmts : c.pmts.length = p.pmtDb.length)
    (hsim : SimulatesSipms c p.sipmDb.length ⌊p.bufferLen / p.sipmW⌋.toNat) :
    ∃ t pms out, BuffyEvent.run p run evs = .ok t ∧
      (∀ i ∈ (nextSource [t]).items, ∃ ev ∈ evs, BuffyEvent.Seen p ev ∧ ∃ j n, ItemOf p m run ev j n i) ∧
      hypathiaRun c run ((nextSource [t]).items.map toRaw) = .ok out ∧
      List.Forall₂ (fun (i : Sources.WfItem Mat Unit) pm => PmapBuild.hypathiaEvent c.conf c.fluct c.simSipm c.stride c.pmts c.sipms i.pmt i.sipm.rows c.nSipm = .ok pm) (nextSource [t]).items pms ∧
      out.indices = ((nextSource [t]).items.zip pms).map (fun x => (x.1.event, x.2.isSome)) ∧
      Sources.pmapFromFiles [out.file] = ⟨(IreneRun.withPeaks ((nextSource [t]).items.map toRaw) pms).map (IreneRun.item run), none⟩ := by
  obtain ⟨t, ht, h1, _⟩ := buffy_read hp k hk hlen run evs hseen hnum
  obtain ⟨_, ⟨hd, _⟩, hi, _⟩ := h1 htrg
  obtain ⟨pms, out, o1, o2, o3, _, o5⟩ := IreneRun.hypathia_run hc (raws := (nextSource [t]).items.map toRaw) (by
    intro r hr
    obtain ⟨i, hmem, rfl⟩ := List.mem_map.1 hr
    obtain ⟨ev, _, _, j, n, h⟩ := hi i hmem
    refine ⟨?_, ?_, h.pmt.1, ?_⟩
    · rw [hpmts]; exact h.pmt.2.1
    · intro row hrow
      rw [holds_rows h.pmt row hrow]
      exact h.pmt.1.symm
    · exact hsim _ h.sipm.2.1 (holds_rows h.sipm)) (by
    rw [List.map_map]; exact hd) run
  refine ⟨t, pms, out, ht, hi, o2, ?_, ?_, o5⟩
  · rw [List.forall₂_map_left_iff] at o1
    exact o1
  · rw [o3, List.zip_map_left, List.map_map]
    rfl

/-! ### Examples -/

/-- The hypotheses of `buffy_read` and `buffy_to_hypathia` hold for the event with two triggers of `BuffyEvent`, and the configuration of hypathia of `IreneRun`. -/
example : BuffyEvent.exPars.Good 2 ∧ BuffyEvent.exPars.maxTime = (16 : Nat) * BuffyEvent.exPars.pmtW ∧ BuffyEvent.exPars.bufferLen ≤ BuffyEvent.exPars.maxTime ∧ BuffyEvent.Seen BuffyEvent.exPars BuffyEvent.exEv ∧
    ⌊BuffyEvent.exPars.bufferLen / BuffyEvent.exPars.pmtW⌋.toNat = 8 ∧ IreneRun.caseHypathia.pmts.length = BuffyEvent.exPars.pmtDb.length ∧ SimulatesSipms IreneRun.caseHypathia 3 4 :=
  ⟨BuffyEvent.exPars_good, by norm_num [BuffyEvent.exPars], by norm_num [BuffyEvent.exPars], BuffyEvent.exEv_seen, by decide +kernel, rfl, fun _ _ _ => ⟨_, rfl, by decide, by decide⟩⟩

def exTables : Tables := ((BuffyEvent.run BuffyEvent.exPars 3 [BuffyEvent.exEv]).toOption).getD ⟨[], [], [], []⟩

/-- Two items, with the numbers of the event 7 with at most two triggers per event. -/
example : (BuffyEvent.run BuffyEvent.exPars 3 [BuffyEvent.exEv]).toOption = some exTables ∧ (nextSource [exTables]).exc = none ∧
    (nextSource [exTables]).items.map (fun i => (i.runNumber, i.event, i.timestamp)) = [(3, 14, 105), (3, 15, 115)] ∧
    (nextSource [exTables]).items.map (fun i => i.pmt.rows) = [[[0, 0, 0, 0, 1, 0, 0, 0], [0, 0, 0, 4, 2, 0, 0, 0]], [[0, 0, 0, 9, 0, 0, 0, 0], [0, 0, 0, 0, 0, 0, 0, 0]]] ∧
    (nextSource [exTables]).items.map (fun i => i.sipm.rows) = [[[0, 0, 0, 0], [0, 3, 0, 0], [0, 0, 0, 0]], [[0, 0, 0, 0], [0, 0, 0, 0], [0, 2, 0, 0]]] := by decide +kernel

example : (hypathiaRun IreneRun.caseHypathia 3 ((nextSource [exTables]).items.map toRaw)).toOption.map (fun o => o.indices.map Prod.fst) = some [14, 15] := by decide +kernel

/-- Two files, one after the other. -/
example : (nextSource [exTables, exTables]).items.map (fun i => i.event) = [14, 15, 14, 15] := by decide +kernel
example : exTables.events ≠ [] ∧ Rows exTables 3 := ⟨by decide +kernel, by decide +kernel, by decide +kernel, by decide +kernel⟩

/-- An event without light in the SiPMs: nothing is written and the file cannot be read. -/
def exDark : BuffyEvent.Event := ⟨8, 100, [⟨1, 5, 4⟩], []⟩
example : (BuffyEvent.run BuffyEvent.exPars 3 [exDark]).toOption.map (fun t => (nextSource [t]).exc) = some (some .indexError) := by decide +kernel

def exDetsim : Tables := ((DetsimEvent.run DetsimEvent.exPars 3 [(DetsimEvent.exEv, DetsimEvent.exD)]).toOption).getD ⟨[], [], [], []⟩

/-- The same for detsim. -/
example : DetsimEvent.Valid DetsimEvent.exPars DetsimEvent.exD DetsimEvent.exEv ∧ DetsimEvent.exPars.Good 2 8 DetsimEvent.exT ∧
    (DetsimEvent.run DetsimEvent.exPars 3 [(DetsimEvent.exEv, DetsimEvent.exD)]).toOption = some exDetsim ∧
    (nextSource [exDetsim]).items.map (fun i => (i.timestamp, i.pmt.rows)) = [(1005, [[1, 0, 0, 9, 0, 0]]), (1012, [[0, 0, 6, 0, 0, 0]])] := by
  have hf : DetsimEvent.IsFirst DetsimEvent.exEv ⟨0, 0, 4, 2, 31, "ACTIVE"⟩ := by unfold DetsimEvent.IsFirst; decide +kernel
  exact ⟨⟨_, _, _, ⟨rfl, rfl⟩, hf, fun _ => ⟨_, DetsimEvent.ex_drawn⟩⟩, DetsimEvent.exPars_good, by decide +kernel, by decide +kernel⟩

end Verif.SimChain
