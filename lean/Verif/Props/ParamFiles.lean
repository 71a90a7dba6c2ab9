import Verif.Spec.ParamFiles
import Verif.Props.Corrections
import Mathlib.Tactic.Linarith
/-!
# C118: files of parameters
-/
namespace Verif.ParamFiles
open Verif (PyErr)
open Verif.Corrections (Info Table Evol Strategy Options Point normalization applyAll toZ)
open Verif.Detsim (LTFun Nearest)

/-! ### Correction maps -/

/-- **C118**: a map is read exactly when the file has its six tables; each table goes to its field, and the time evolution is there only for runs of data in which it can be read. -/
theorem read_maps (f : MapFile) (m : SectorMap) : readMaps f = .ok m ↔
    f.chi2 = some m.chi2 ∧ f.e0 = some m.e0 ∧ f.e0u = some m.e0u ∧ f.lt = some m.lt ∧ f.ltu = some m.ltu ∧ f.mapinfo = some (m.info, m.run) ∧
      (0 < m.run → ∀ ev, m.evol = some ev ↔ f.evol = .ok ev) ∧ (m.run ≤ 0 → m.evol = none) := by
  obtain ⟨chi2, e0, e0u, lt, ltu, info, evol⟩ := f
  obtain ⟨mchi2, me0, mlt, me0u, mltu, minfo, mrun, mevol⟩ := m
  have hopt : ∀ (o : Option Evol), (∀ ev, o = some ev ↔ evol = .ok ev) → evol.toOption = o := by
    intro o h
    cases evol with
    | error e =>
      cases o with
      | none => rfl
      | some ev => exact absurd ((h ev).1 rfl) (by simp)
    | ok ev => rw [(h ev).2 rfl]; rfl
  have hopt' : ∀ ev, evol.toOption = some ev ↔ evol = .ok ev := by
    intro ev
    cases evol with
    | error e => simp [Except.toOption]
    | ok ev' => simp [Except.toOption]
  unfold readMaps
  cases chi2 <;> cases e0 <;> cases e0u <;> cases lt <;> cases ltu <;> cases info <;> simp only [readHdf] <;> try simp only [reduceCtorEq, false_and, and_false]
  rename_i a b c d e p
  obtain ⟨info, run⟩ := p
  simp only [Except.ok.injEq, SectorMap.mk.injEq, Option.some.injEq, Prod.mk.injEq]
  constructor
  · rintro ⟨rfl, rfl, rfl, rfl, rfl, rfl, rfl, rfl⟩
    refine ⟨rfl, rfl, rfl, rfl, rfl, ⟨rfl, rfl⟩, fun h ev => ?_, fun h => ?_⟩
    · rw [evolOf, if_pos h]; exact hopt' ev
    · rw [evolOf, if_neg (by omega)]
  · rintro ⟨rfl, rfl, rfl, rfl, rfl, ⟨rfl, rfl⟩, h1, h2⟩
    refine ⟨rfl, rfl, rfl, rfl, rfl, rfl, rfl, ?_⟩
    unfold evolOf
    by_cases h : run > 0
    · rw [if_pos h]; exact hopt _ (h1 h)
    · rw [if_neg h]; exact (h2 (by omega)).symm

/-- **C118**: it fails only for a missing table, with `KeyError`; problems with the time evolution are never reported. -/
theorem read_maps_fails (f : MapFile) (e : PyErr) (h : readMaps f = .error e) :
    e = .keyError ∧ (f.chi2 = none ∨ f.e0 = none ∨ f.e0u = none ∨ f.lt = none ∨ f.ltu = none ∨ f.mapinfo = none) := by
  obtain ⟨chi2, e0, e0u, lt, ltu, info, evol⟩ := f
  unfold readMaps at h
  cases chi2 <;> cases e0 <;> cases e0u <;> cases lt <;> cases ltu <;> cases info <;> simp only [readHdf] at h <;> first | (cases h; simp) | cases h

/-- **C118**: with the map of a simulation (or of data without a readable time evolution) the correction in time fails with `TimeEvolutionTableMissing`, although the file has that table. -/
theorem simulation_without_time (f : MapFile) (m : SectorMap) (hm : readMaps f = .ok m) (hrun : m.run ≤ 0 ∨ f.evol.toOption = none) (exp : ℚ → ℚ) (keV : ℚ) (s : Strategy) (o : Options) (pts : List Point)
    (n : Option ℚ) (hn : normalization keV m.info m.e0 s o = .ok n) : applyOne exp keV m true s o pts = .error (.other "TimeEvolutionTableMissing") := by
  obtain ⟨-, -, -, -, -, -, h1, h2⟩ := (read_maps f m).1 hm
  have he : m.evol = none := by
    by_cases hr : m.run ≤ 0
    · exact h2 hr
    · cases hv : m.evol with
      | none => rfl
      | some ev =>
        have := (h1 (by omega) ev).1 hv
        rcases hrun with hrun | hrun
        · exact absurd hrun hr
        · rw [this] at hrun; cases hrun
  unfold applyOne
  rw [he]
  exact (Corrections.missing_table exp keV m.info m.e0 m.info m.lt s o pts n hn 0).1

/-- **C118**: without the correction in time the factors depend neither on the time evolution nor on the errors of the map, nor on the run. -/
theorem factors_without_time (f g : MapFile) (mf mg : SectorMap) (hf : readMaps f = .ok mf) (hg : readMaps g = .ok mg) (h1 : f.e0 = g.e0) (h2 : f.lt = g.lt) (h3 : f.mapinfo.map Prod.fst = g.mapinfo.map Prod.fst)
    (exp : ℚ → ℚ) (keV : ℚ) (s : Strategy) (o : Options) (pts : List Point) : applyOne exp keV mf false s o pts = applyOne exp keV mg false s o pts := by
  obtain ⟨-, a1, -, a2, -, a3, -, -⟩ := (read_maps f mf).1 hf
  obtain ⟨-, b1, -, b2, -, b3, -, -⟩ := (read_maps g mg).1 hg
  rw [a1, b1] at h1
  rw [a2, b2] at h2
  rw [a3, b3] at h3
  injection h1 with h1
  injection h2 with h2
  injection h3 with h3
  dsimp only at h3
  unfold applyOne applyAll
  rw [h1, h2, h3]
  simp

/-- A file of a simulation, with time evolution. -/
def demoMap : MapFile := ⟨some [[some 1]], some [[some 4]], some [[some 2]], some [[some 5]], some [[some 3]], some (⟨0, 10, 0, 10, 1, 1⟩, -5), .ok ⟨[1], [2], [3], [4], [5]⟩⟩

example : ∃ m, readMaps demoMap = .ok m ∧ m.run = -5 ∧ m.evol = none ∧ m.lt = [[some 5]] ∧ normalization 1 m.info m.e0 .max {} = .ok (some 4) ∧
    (applyOne (fun x => 1 + x) 1 m false .max {} [⟨5, 5, 10, 0⟩]).toOption = some [some 3] ∧ (applyOne (fun x => 1 + x) 1 m true .max {} [⟨5, 5, 10, 0⟩]).toOption = none :=
  ⟨_, rfl, rfl, rfl, rfl, by decide +kernel, by decide +kernel, by decide +kernel⟩

/-! ### Light tables -/

theorem configNumber_iff (parse : String → Option ℚ) (mm : ℚ) (f : LightFile) (name : String) (v : ℚ) :
    configNumber parse mm f.config name = .ok v ↔ ∃ u, Gives parse f name u ∧ v = u * mm := by
  unfold configNumber configValue Gives
  have hn : ∀ p ∈ f.config.filter (fun p => decide (p.1 = name)), p.1 = name := by
    intro p hp
    simpa using (List.mem_filter.1 hp).2
  generalize f.config.filter (fun p => decide (p.1 = name)) = l at hn
  match l with
  | [] => simp
  | [p] =>
    have hp := hn p (by simp)
    obtain ⟨a, s⟩ := p
    dsimp only at hp
    subst hp
    dsimp only
    cases hs : parse s with
    | none => simp [hs]
    | some u => simp [hs, eq_comm]
  | p :: q :: l => simp

/-- **C118**: a light table is read exactly when its configuration has (once) the gap and the radius.  They are those of the file unless the user gives others that are not null, and then there is a warning. -/
theorem read_light (parse : String → Option ℚ) (mm : ℚ) (f : LightFile) (elGap activeR : Option ℚ) (r : Sizes) : readLightTable parse mm f elGap activeR = .ok r ↔
    ∃ gap rad, Gives parse f "EL_GAP" gap ∧ Gives parse f "ACTIVE_rad" rad ∧
      r.elGap = (if elGap = none ∨ elGap = some 0 then gap * mm else elGap.getD 0) ∧ r.activeR = (if activeR = none ∨ activeR = some 0 then rad * mm else activeR.getD 0) ∧
      (r.warnGap = true ↔ elGap ≠ none ∧ elGap ≠ some 0 ∧ elGap ≠ some (gap * mm)) ∧ (r.warnR = true ↔ activeR ≠ none ∧ activeR ≠ some 0 ∧ activeR ≠ some (rad * mm)) := by
  have hc : ∀ (u : Option ℚ) (v : ℚ), (choose u v).1 = (if u = none ∨ u = some 0 then v else u.getD 0) ∧ ((choose u v).2 = true ↔ u ≠ none ∧ u ≠ some 0 ∧ u ≠ some v) := by
    intro u v
    cases u with
    | none => simp [choose]
    | some w =>
      unfold choose
      by_cases h0 : w = 0 <;> by_cases h1 : w = v <;> simp [h0, h1]
  unfold readLightTable
  constructor
  · intro h
    cases h1 : configNumber parse mm f.config "EL_GAP" with
    | error e => rw [h1] at h; cases h
    | ok gap =>
      cases h2 : configNumber parse mm f.config "ACTIVE_rad" with
      | error e => rw [h1, h2] at h; cases h
      | ok rad =>
        rw [h1, h2] at h
        injection h with h
        subst h
        obtain ⟨a, ha, rfl⟩ := (configNumber_iff parse mm f _ _).1 h1
        obtain ⟨b, hb, rfl⟩ := (configNumber_iff parse mm f _ _).1 h2
        exact ⟨a, b, ha, hb, (hc _ _).1, (hc _ _).1, (hc _ _).2, (hc _ _).2⟩
  · rintro ⟨a, b, ha, hb, e1, e2, e3, e4⟩
    rw [(configNumber_iff parse mm f "EL_GAP" _).2 ⟨a, ha, rfl⟩, (configNumber_iff parse mm f "ACTIVE_rad" _).2 ⟨b, hb, rfl⟩]
    obtain ⟨g, rr, wg, wr⟩ := r
    dsimp only at e1 e2 e3 e4 ⊢
    congr 2
    · rw [e1]; exact (hc _ _).1
    · rw [e2]; exact (hc _ _).1
    · rw [Bool.eq_iff_iff, e3]; exact (hc _ _).2
    · rw [Bool.eq_iff_iff, e4]; exact (hc _ _).2

theorem cell_has {columns : List String} {row : List ℚ} (hl : row.length = columns.length) {c : String} (hc : c ∈ columns) : HasValue columns row c (cell columns row c) := by
  have hi := List.idxOf_lt_length_of_mem hc
  refine ⟨columns.idxOf c, ?_, ?_⟩
  · rw [List.getElem?_eq_getElem hi]
    simp
  · unfold cell
    rw [List.getD_eq_getElem?_getD, List.getElem?_eq_getElem (by omega)]
    rfl

theorem hasValue_unique {columns : List String} (hn : columns.Nodup) {row : List ℚ} {c : String} {v w : ℚ} (hv : HasValue columns row c v) (hw : HasValue columns row c w) : v = w := by
  obtain ⟨k, h1, h2⟩ := hv
  obtain ⟨j, h3, h4⟩ := hw
  have hk := (List.getElem?_eq_some_iff.1 h1).1
  have : k = j := by
    refine (List.getElem?_inj hk hn).1 (by rw [h1, h3])
  subst this
  rw [h2] at h4
  injection h4

theorem sensorValues_get (p : String → Bool) : ∀ (columns : List String) (row : List ℚ), row.length = columns.length → ∀ (k : Nat) (c : String),
    (columns.filter p)[k]? = some c → ∃ v, (((columns.zip row).filter fun q => p q.1).map Prod.snd)[k]? = some v ∧ HasValue columns row c v := by
  intro columns
  induction columns with
  | nil => intro row _ k c h; simp at h
  | cons a columns ih =>
    intro row hl k c h
    cases row with
    | nil => cases hl
    | cons u row =>
      have hl' : row.length = columns.length := by simpa using hl
      rw [List.zip_cons_cons]
      have lift : ∀ v, HasValue columns row c v → HasValue (a :: columns) (u :: row) c v := by
        rintro v ⟨j, h1, h2⟩
        exact ⟨j + 1, by simpa using h1, by simpa using h2⟩
      cases hp : p a with
      | false =>
        rw [List.filter_cons_of_neg (by simp [hp])] at h ⊢
        obtain ⟨v, hv, hh⟩ := ih row hl' k c h
        exact ⟨v, hv, lift v hh⟩
      | true =>
        rw [List.filter_cons_of_pos hp] at h
        rw [List.filter_cons_of_pos (by simpa using hp)]
        cases k with
        | zero =>
          simp only [List.getElem?_cons_zero, Option.some.injEq] at h
          subst h
          exact ⟨u, by simp, 0, by simp, by simp⟩
        | succ k =>
          rw [List.getElem?_cons_succ] at h
          obtain ⟨v, hv, hh⟩ := ih row hl' k c h
          exact ⟨v, by simpa using hv, lift v hh⟩

/-- **C118**: the function of a light table of S1, from the file.  For a file with rows, the configuration complete and a positive radius (that of the file, or the one given), and positions with as many `x`, `y` and `z` (or one `z` for all),
there is one row of values per position, one for each sensor column.  Beyond the radius or the range in `z` they are zero; elsewhere they are those of the row of the file with the nearest value of each coordinate, zero if there is none. -/
theorem light_file {parse : String → Option ℚ} {mm : ℚ} {f : LightFile} (ht : Tidy f) {activeR : Option ℚ} {gap rad : ℚ} {sensor : String} (hgap : Gives parse f "EL_GAP" gap) (hrad : Gives parse f "ACTIVE_rad" rad)
    (hsens : f.config.filter (fun p => decide (p.1 = "sensor")) = [("sensor", sensor)]) (htot : (sensor ++ "_total") ∈ f.columns) (hx : "x" ∈ f.columns) (hy : "y" ∈ f.columns) (hz : "z" ∈ f.columns) (hrows : f.rows ≠ [])
    {R : ℚ} (hRdef : R = if activeR = none ∨ activeR = some 0 then rad * mm else activeR.getD 0) (hR : 0 < R) (xs ys zs : List ℚ) (hlen : ys.length = xs.length ∧ (zs.length = xs.length ∨ zs.length = 1)) :
    ∃ out, callS1 parse mm f activeR xs ys zs = .ok out ∧ out.length = xs.length ∧ ∀ (i : Nat) (x y z : ℚ), xs[i]? = some x → ys[i]? = some y → zs[if zs.length = 1 then 0 else i]? = some z →
      ∃ v, out[i]? = some v ∧
        (R * R < x * x + y * y ∨ (∀ row ∈ f.rows, ∀ w, HasValue f.columns row "z" w → z < w) ∨ (∀ row ∈ f.rows, ∀ w, HasValue f.columns row "z" w → w < z) → v = List.replicate (sensorColumns f sensor).length 0) ∧
        (x * x + y * y ≤ R * R → (∃ row ∈ f.rows, ∃ w, HasValue f.columns row "z" w ∧ w ≤ z) → (∃ row ∈ f.rows, ∃ w, HasValue f.columns row "z" w ∧ z ≤ w) → ∃ a b c,
          (∃ row ∈ f.rows, HasValue f.columns row "x" a) ∧ (∃ row ∈ f.rows, HasValue f.columns row "y" b) ∧ (∃ row ∈ f.rows, HasValue f.columns row "z" c) ∧
          (∀ row ∈ f.rows, ∀ w, (HasValue f.columns row "x" w → |x - a| ≤ |x - w|) ∧ (HasValue f.columns row "y" w → |y - b| ≤ |y - w|) ∧ (HasValue f.columns row "z" w → |z - c| ≤ |z - w|)) ∧
          ((¬ ∃ row ∈ f.rows, HasValue f.columns row "x" a ∧ HasValue f.columns row "y" b ∧ HasValue f.columns row "z" c) → v = List.replicate (sensorColumns f sensor).length 0) ∧
          ((∃ row ∈ f.rows, HasValue f.columns row "x" a ∧ HasValue f.columns row "y" b ∧ HasValue f.columns row "z" c) →
            ∃ row ∈ f.rows, HasValue f.columns row "x" a ∧ HasValue f.columns row "y" b ∧ HasValue f.columns row "z" c ∧
              ∀ (k : Nat) (col : String), (sensorColumns f sensor)[k]? = some col → ∃ u, v[k]? = some u ∧ HasValue f.columns row col u)) := by
  obtain ⟨r, hr⟩ : ∃ r, readLightTable parse mm f none activeR = .ok r ∧ r.activeR = R := by
    refine ⟨⟨gap * mm, R, false, decide (activeR ≠ none ∧ activeR ≠ some 0 ∧ activeR ≠ some (rad * mm))⟩, (read_light parse mm f none activeR _).2 ⟨gap, rad, hgap, hrad, by simp, hRdef, by simp, ?_⟩, rfl⟩
    simp
  have hskip : ∀ c : String, decide (c ∉ [sensor ++ "_total", "x", "y", "z"]) = decide (c ≠ "x" ∧ c ≠ "y" ∧ c ≠ "z" ∧ c ≠ sensor ++ "_total") := by
    intro c
    rw [decide_eq_decide]
    simp only [List.mem_cons, List.not_mem_nil, or_false, not_or]
    tauto
  obtain ⟨t, htd⟩ : ∃ t : LTFun, t = ⟨f.rows.map fun row => ((cell f.columns row "x", cell f.columns row "y", cell f.columns row "z"), sensorValues f.columns [sensor ++ "_total", "x", "y", "z"] row), R, (sensorColumns f sensor).length⟩ := ⟨_, rfl⟩
  have hfun : lightFunction parse mm f activeR = .ok t := by
    unfold lightFunction configValue
    rw [hr.1, hsens]
    dsimp only
    rw [if_pos ⟨htot, hx, hy⟩, htd, hr.2]
    simp only [hz, if_true]
    unfold sensorColumns
    simp only [hskip]
  have hpos : ∃ zs', positions xs ys zs = .ok (List.zip xs (List.zip ys zs')) ∧ zs'.length = xs.length ∧ ∀ (i : Nat) (z : ℚ), i < xs.length → zs[if zs.length = 1 then 0 else i]? = some z → zs'[i]? = some z := by
    unfold positions
    by_cases h1 : zs.length = 1
    · rw [if_pos h1, if_pos ⟨hlen.1.symm, rfl⟩, if_pos h1]
      refine ⟨_, rfl, by simp, fun i z hi hz => ?_⟩
      rw [if_pos h1] at hz
      rw [List.getElem?_replicate_of_lt hi, List.getD_eq_getElem?_getD, hz]
      rfl
    · have hl2 : zs.length = xs.length := by rcases hlen.2 with h | h; exacts [h, absurd h h1]
      rw [if_neg h1, if_pos ⟨hlen.1.symm, hl2.symm⟩, if_neg h1]
      refine ⟨_, rfl, hl2, fun i z hi hz => ?_⟩
      rwa [if_neg h1] at hz
  obtain ⟨zs', hp, hzl, hzs⟩ := hpos
  have hrows' : t.rows ≠ [] := by rw [htd]; simpa using hrows
  have hR' : 0 < t.activeR := by rw [htd]; exact hR
  obtain ⟨out, ho, hol, hv⟩ := Detsim.light_function hrows' hR' (List.zip xs (List.zip ys zs'))
  have val : ∀ row ∈ f.rows, ∀ c ∈ f.columns, ∀ w, HasValue f.columns row c w ↔ w = cell f.columns row c := by
    intro row hrow c hc w
    have hh := cell_has (ht.rows row hrow) hc
    exact ⟨fun h => hasValue_unique ht.names h hh, fun h => h ▸ hh⟩
  refine ⟨out, by unfold callS1; rw [hfun]; dsimp only; rw [hp]; exact ho, by rw [hol]; simp [hlen.1, hzl], fun i x y z hxi hyi hzi => ?_⟩
  have hi : i < xs.length := (List.getElem?_eq_some_iff.1 hxi).1
  have hpi : (List.zip xs (List.zip ys zs'))[i]? = some (x, y, z) := by
    rw [List.getElem?_zip_eq_some]
    refine ⟨hxi, ?_⟩
    rw [List.getElem?_zip_eq_some]
    exact ⟨hyi, hzs i z hi hzi⟩
  obtain ⟨v, hvo, hzero, hin⟩ := hv i _ hpi
  have mem : ∀ (P : (ℚ × ℚ × ℚ) × List ℚ → Prop), (∃ q ∈ t.rows, P q) ↔ ∃ row ∈ f.rows, P ((cell f.columns row "x", cell f.columns row "y", cell f.columns row "z"), sensorValues f.columns [sensor ++ "_total", "x", "y", "z"] row) := by
    intro P
    rw [htd]
    simp
  have all : ∀ (P : (ℚ × ℚ × ℚ) × List ℚ → Prop), (∀ q ∈ t.rows, P q) ↔ ∀ row ∈ f.rows, P ((cell f.columns row "x", cell f.columns row "y", cell f.columns row "z"), sensorValues f.columns [sensor ++ "_total", "x", "y", "z"] row) := by
    intro P
    rw [htd]
    simp
  have hact : t.activeR = R := by rw [htd]
  have hns : t.nsens = (sensorColumns f sensor).length := by rw [htd]
  rw [hact, hns] at hzero hin
  refine ⟨v, hvo, fun h => hzero ?_, fun hr2 hlo hhi => ?_⟩
  · rcases h with h | h | h
    · exact .inl h
    · refine .inr (.inl ((all _).2 fun row hrow => h row hrow _ ((val row hrow "z" hz _).2 rfl)))
    · refine .inr (.inr ((all _).2 fun row hrow => h row hrow _ ((val row hrow "z" hz _).2 rfl)))
  · obtain ⟨row1, hrow1, w1, hw1, hle1⟩ := hlo
    obtain ⟨row2, hrow2, w2, hw2, hle2⟩ := hhi
    rw [val row1 hrow1 "z" hz] at hw1
    rw [val row2 hrow2 "z" hz] at hw2
    subst hw1 hw2
    obtain ⟨a, b, c, ha, hb, hc, hno, hyes⟩ := hin hr2 ((mem _).2 ⟨row1, hrow1, hle1⟩) ((mem _).2 ⟨row2, hrow2, hle2⟩)
    have memc : ∀ (g : (ℚ × ℚ × ℚ) × List ℚ → ℚ) (s : String), s ∈ f.columns →
        (∀ row, g ((cell f.columns row "x", cell f.columns row "y", cell f.columns row "z"), sensorValues f.columns [sensor ++ "_total", "x", "y", "z"] row) = cell f.columns row s) →
        ∀ (x0 a0 : ℚ), Nearest (t.rows.map g) x0 a0 → (∃ row ∈ f.rows, HasValue f.columns row s a0) ∧ ∀ row ∈ f.rows, ∀ w, HasValue f.columns row s w → |x0 - a0| ≤ |x0 - w| := by
      intro g s hs hg x0 a0 hn
      obtain ⟨hn1, hn2⟩ := hn
      obtain ⟨q, hq, hqa⟩ := List.mem_map.1 hn1
      constructor
      · obtain ⟨row, hrow, hr⟩ := (mem fun q => g q = a0).1 ⟨q, hq, hqa⟩
        rw [hg] at hr
        exact ⟨row, hrow, (val row hrow s hs a0).2 hr.symm⟩
      · intro row hrow w hw
        refine hn2 w (List.mem_map.2 ?_)
        refine (mem fun q => g q = w).2 ⟨row, hrow, ?_⟩
        rw [hg]
        exact ((val row hrow s hs w).1 hw).symm
    have ha' := memc _ "x" hx (fun _ => rfl) _ _ ha
    have hb' := memc _ "y" hy (fun _ => rfl) _ _ hb
    have hc' := memc _ "z" hz (fun _ => rfl) _ _ hc
    have key : ∀ row ∈ f.rows, (HasValue f.columns row "x" a ∧ HasValue f.columns row "y" b ∧ HasValue f.columns row "z" c) ↔
        (cell f.columns row "x", cell f.columns row "y", cell f.columns row "z") = (a, b, c) := by
      intro row hrow
      rw [val row hrow "x" hx, val row hrow "y" hy, val row hrow "z" hz]
      simp only [Prod.mk.injEq]
      exact ⟨fun h => ⟨h.1.symm, h.2.1.symm, h.2.2.symm⟩, fun h => ⟨h.1.symm, h.2.1.symm, h.2.2.symm⟩⟩
    refine ⟨a, b, c, ha'.1, hb'.1, hc'.1, fun row hrow w => ⟨ha'.2 row hrow w, hb'.2 row hrow w, hc'.2 row hrow w⟩, fun hn => ?_, fun he => ?_⟩
    · refine hno ((all _).2 fun row hrow heq => hn ⟨row, hrow, (key row hrow).2 heq⟩)
    · obtain ⟨row, hrow, hrk⟩ := he
      obtain ⟨q, hq, hqe, hqv⟩ := hyes ((mem _).2 ⟨row, hrow, (key row hrow).1 hrk⟩)
      obtain ⟨row', hrow', he', hv'⟩ := (mem fun q => q.1 = (a, b, c) ∧ v = q.2).1 ⟨q, hq, hqe, hqv⟩
      refine ⟨row', hrow', ((key row' hrow').2 he').1, ((key row' hrow').2 he').2.1, ((key row' hrow').2 he').2.2, fun k col hcol => ?_⟩
      dsimp only at hv'
      rw [hv']
      unfold sensorColumns at hcol
      unfold sensorValues
      simp only [hskip]
      exact sensorValues_get (fun c => decide (c ≠ "x" ∧ c ≠ "y" ∧ c ≠ "z" ∧ c ≠ sensor ++ "_total")) _ _ (ht.rows row' hrow') k col hcol

/-- **C118**: the function of a light table without `z` (S2), from the file: the values of a position inside the radius are those of the row with the nearest `x` and the nearest `y` of the file. -/
theorem light_file_s2 {parse : String → Option ℚ} {mm : ℚ} {f : LightFile} (ht : Tidy f) {activeR : Option ℚ} {gap rad : ℚ} {sensor : String} (hgap : Gives parse f "EL_GAP" gap) (hrad : Gives parse f "ACTIVE_rad" rad)
    (hsens : f.config.filter (fun p => decide (p.1 = "sensor")) = [("sensor", sensor)]) (htot : (sensor ++ "_total") ∈ f.columns) (hx : "x" ∈ f.columns) (hy : "y" ∈ f.columns) (hz : "z" ∉ f.columns) (hrows : f.rows ≠ [])
    {R : ℚ} (hRdef : R = if activeR = none ∨ activeR = some 0 then rad * mm else activeR.getD 0) (hR : 0 < R) (xs ys : List ℚ) (hlen : ys.length = xs.length) :
    ∃ out, callS2 parse mm f activeR xs ys = .ok out ∧ out.length = xs.length ∧ ∀ (i : Nat) (x y : ℚ), xs[i]? = some x → ys[i]? = some y →
      ∃ v, out[i]? = some v ∧ (R * R < x * x + y * y → v = List.replicate (sensorColumns f sensor).length 0) ∧
        (x * x + y * y ≤ R * R → ∃ a b,
          (∃ row ∈ f.rows, HasValue f.columns row "x" a) ∧ (∃ row ∈ f.rows, HasValue f.columns row "y" b) ∧
          (∀ row ∈ f.rows, ∀ w, (HasValue f.columns row "x" w → |x - a| ≤ |x - w|) ∧ (HasValue f.columns row "y" w → |y - b| ≤ |y - w|)) ∧
          ((¬ ∃ row ∈ f.rows, HasValue f.columns row "x" a ∧ HasValue f.columns row "y" b) → v = List.replicate (sensorColumns f sensor).length 0) ∧
          ((∃ row ∈ f.rows, HasValue f.columns row "x" a ∧ HasValue f.columns row "y" b) → ∃ row ∈ f.rows, HasValue f.columns row "x" a ∧ HasValue f.columns row "y" b ∧
              ∀ (k : Nat) (col : String), (sensorColumns f sensor)[k]? = some col → ∃ u, v[k]? = some u ∧ HasValue f.columns row col u)) := by
  obtain ⟨r, hr⟩ : ∃ r, readLightTable parse mm f none activeR = .ok r ∧ r.activeR = R := by
    refine ⟨⟨gap * mm, R, false, decide (activeR ≠ none ∧ activeR ≠ some 0 ∧ activeR ≠ some (rad * mm))⟩, (read_light parse mm f none activeR _).2 ⟨gap, rad, hgap, hrad, by simp, hRdef, by simp, ?_⟩, rfl⟩
    simp
  have hskip : ∀ c : String, decide (c ∉ [sensor ++ "_total", "x", "y", "z"]) = decide (c ≠ "x" ∧ c ≠ "y" ∧ c ≠ "z" ∧ c ≠ sensor ++ "_total") := by
    intro c
    rw [decide_eq_decide]
    simp only [List.mem_cons, List.not_mem_nil, or_false, not_or]
    tauto
  obtain ⟨t, htd⟩ : ∃ t : LTFun, t = ⟨f.rows.map fun row => ((cell f.columns row "x", cell f.columns row "y", 1), sensorValues f.columns [sensor ++ "_total", "x", "y", "z"] row), R, (sensorColumns f sensor).length⟩ := ⟨_, rfl⟩
  have hfun : lightFunction parse mm f activeR = .ok t := by
    unfold lightFunction configValue
    rw [hr.1, hsens]
    dsimp only
    rw [if_pos ⟨htot, hx, hy⟩, htd, hr.2]
    simp only [hz, if_false]
    unfold sensorColumns
    simp only [hskip]
  have hp : positions xs ys [1] = .ok (List.zip xs (List.zip ys (List.replicate xs.length 1))) := by
    unfold positions
    rw [if_pos ⟨hlen.symm, by simp⟩]
    simp
  have hrows' : t.rows ≠ [] := by rw [htd]; simpa using hrows
  have hR' : 0 < t.activeR := by rw [htd]; exact hR
  obtain ⟨out, ho, hol, hv⟩ := Detsim.light_function hrows' hR' (List.zip xs (List.zip ys (List.replicate xs.length 1)))
  have val : ∀ row ∈ f.rows, ∀ c ∈ f.columns, ∀ w, HasValue f.columns row c w ↔ w = cell f.columns row c := by
    intro row hrow c hc w
    have hh := cell_has (ht.rows row hrow) hc
    exact ⟨fun h => hasValue_unique ht.names h hh, fun h => h ▸ hh⟩
  refine ⟨out, by unfold callS2 callS1; rw [hfun]; dsimp only; rw [hp]; exact ho, by rw [hol]; simp [hlen], fun i x y hxi hyi => ?_⟩
  have hi : i < xs.length := (List.getElem?_eq_some_iff.1 hxi).1
  have hpi : (List.zip xs (List.zip ys (List.replicate xs.length (1 : ℚ))))[i]? = some (x, y, 1) := by
    rw [List.getElem?_zip_eq_some]
    refine ⟨hxi, ?_⟩
    rw [List.getElem?_zip_eq_some]
    exact ⟨hyi, List.getElem?_replicate_of_lt hi⟩
  obtain ⟨v, hvo, hzero, hin⟩ := hv i _ hpi
  have mem : ∀ (P : (ℚ × ℚ × ℚ) × List ℚ → Prop), (∃ q ∈ t.rows, P q) ↔ ∃ row ∈ f.rows, P ((cell f.columns row "x", cell f.columns row "y", 1), sensorValues f.columns [sensor ++ "_total", "x", "y", "z"] row) := by
    intro P
    rw [htd]
    simp
  have all : ∀ (P : (ℚ × ℚ × ℚ) × List ℚ → Prop), (∀ q ∈ t.rows, P q) ↔ ∀ row ∈ f.rows, P ((cell f.columns row "x", cell f.columns row "y", 1), sensorValues f.columns [sensor ++ "_total", "x", "y", "z"] row) := by
    intro P
    rw [htd]
    simp
  have hact : t.activeR = R := by rw [htd]
  have hns : t.nsens = (sensorColumns f sensor).length := by rw [htd]
  rw [hact, hns] at hzero hin
  refine ⟨v, hvo, fun h => hzero (.inl h), fun hr2 => ?_⟩
  obtain ⟨row1, hrow1⟩ := List.exists_mem_of_ne_nil _ hrows
  obtain ⟨a, b, c, ha, hb, hc, hno, hyes⟩ := hin hr2 ((mem _).2 ⟨row1, hrow1, le_refl _⟩) ((mem _).2 ⟨row1, hrow1, le_refl _⟩)
  have hc1 : c = 1 := by
    obtain ⟨q, hq, hqc⟩ := List.mem_map.1 hc.1
    obtain ⟨row, hrow, hr⟩ := (mem fun q => q.1.2.2 = c).1 ⟨q, hq, hqc⟩
    exact hr.symm
  subst hc1
  have memc : ∀ (g : (ℚ × ℚ × ℚ) × List ℚ → ℚ) (s : String), s ∈ f.columns →
      (∀ row, g ((cell f.columns row "x", cell f.columns row "y", 1), sensorValues f.columns [sensor ++ "_total", "x", "y", "z"] row) = cell f.columns row s) →
      ∀ (x0 a0 : ℚ), Nearest (t.rows.map g) x0 a0 → (∃ row ∈ f.rows, HasValue f.columns row s a0) ∧ ∀ row ∈ f.rows, ∀ w, HasValue f.columns row s w → |x0 - a0| ≤ |x0 - w| := by
    intro g s hs hg x0 a0 hn
    obtain ⟨hn1, hn2⟩ := hn
    obtain ⟨q, hq, hqa⟩ := List.mem_map.1 hn1
    constructor
    · obtain ⟨row, hrow, hr⟩ := (mem fun q => g q = a0).1 ⟨q, hq, hqa⟩
      rw [hg] at hr
      exact ⟨row, hrow, (val row hrow s hs a0).2 hr.symm⟩
    · intro row hrow w hw
      refine hn2 w (List.mem_map.2 ?_)
      refine (mem fun q => g q = w).2 ⟨row, hrow, ?_⟩
      rw [hg]
      exact ((val row hrow s hs w).1 hw).symm
  have ha' := memc _ "x" hx (fun _ => rfl) _ _ ha
  have hb' := memc _ "y" hy (fun _ => rfl) _ _ hb
  have key : ∀ row ∈ f.rows, (HasValue f.columns row "x" a ∧ HasValue f.columns row "y" b) ↔ (cell f.columns row "x", cell f.columns row "y", (1 : ℚ)) = (a, b, 1) := by
    intro row hrow
    rw [val row hrow "x" hx, val row hrow "y" hy]
    simp only [Prod.mk.injEq, and_true]
    exact ⟨fun h => ⟨h.1.symm, h.2.symm⟩, fun h => ⟨h.1.symm, h.2.symm⟩⟩
  refine ⟨a, b, ha'.1, hb'.1, fun row hrow w => ⟨ha'.2 row hrow w, hb'.2 row hrow w⟩, fun hn => ?_, fun he => ?_⟩
  · refine hno ((all _).2 fun row hrow heq => hn ⟨row, hrow, (key row hrow).2 heq⟩)
  · obtain ⟨row, hrow, hrk⟩ := he
    obtain ⟨q, hq, hqe, hqv⟩ := hyes ((mem _).2 ⟨row, hrow, (key row hrow).1 hrk⟩)
    obtain ⟨row', hrow', he', hv'⟩ := (mem fun q => q.1 = (a, b, 1) ∧ v = q.2).1 ⟨q, hq, hqe, hqv⟩
    refine ⟨row', hrow', ((key row' hrow').2 he').1, ((key row' hrow').2 he').2, fun k col hcol => ?_⟩
    dsimp only at hv'
    rw [hv']
    unfold sensorColumns at hcol
    unfold sensorValues
    simp only [hskip]
    exact sensorValues_get (fun c => decide (c ≠ "x" ∧ c ≠ "y" ∧ c ≠ "z" ∧ c ≠ sensor ++ "_total")) _ _ (ht.rows row' hrow') k col hcol

/-- **C118**: positions of other lengths are refused. -/
theorem light_file_lengths {parse : String → Option ℚ} {mm : ℚ} {f : LightFile} {activeR : Option ℚ} {xs ys zs : List ℚ} (h : ¬ (ys.length = xs.length ∧ (zs.length = xs.length ∨ zs.length = 1))) :
    ∃ e, callS1 parse mm f activeR xs ys zs = .error e := by
  have hp : positions xs ys zs = .error (.other "Exception") := by
    unfold positions
    rw [if_neg]
    rintro ⟨h1, h2⟩
    refine h ⟨h1.symm, ?_⟩
    split at h2
    · rename_i h1; exact .inr h1
    · exact .inl h2.symm
  unfold callS1
  cases lightFunction parse mm f activeR with
  | error e => exact ⟨e, rfl⟩
  | ok t => dsimp only; rw [hp]; exact ⟨_, rfl⟩

/-- A small table of S1 and the numbers of its configuration. -/
def demoLight : LightFile := ⟨["x", "y", "z", "P_0", "P_1", "P_total"], [[0, 0, 0, 1, 2, 3], [10, 0, 0, 4, 5, 9], [0, 0, 5, 6, 7, 13]], [("EL_GAP", "ten"), ("ACTIVE_rad", "thirty"), ("sensor", "P")]⟩

/-- The same without `z`. -/
def demoLight2 : LightFile := ⟨["x", "y", "P_0", "P_1", "P_total"], [[0, 0, 1, 2, 3], [10, 0, 4, 5, 9]], [("EL_GAP", "ten"), ("ACTIVE_rad", "thirty"), ("sensor", "P")]⟩

/-- Numbers by their names. -/
def demoParse (s : String) : Option ℚ := if s = "ten" then some 10 else if s = "thirty" then some 30 else none

example : Tidy demoLight ∧ Gives demoParse demoLight "EL_GAP" 10 ∧ Gives demoParse demoLight "ACTIVE_rad" 30 ∧ sensorColumns demoLight "P" = ["P_0", "P_1"] ∧
    (callS1 demoParse 1 demoLight none [1, 9, 1, 31, 9] [0, 0, 0, 0, 0] [0, 0, 4, 0, 4]).toOption = some [[1, 2], [4, 5], [6, 7], [0, 0], [0, 0]] ∧
    (callS1 demoParse 1 demoLight (some 0) [1, 9] [0, 0] [5]).toOption = some [[6, 7], [0, 0]] ∧ (readLightTable demoParse 1 demoLight (some 10) (some 20)).toOption = some ⟨10, 20, false, true⟩ ∧
    (readLightTable demoParse 1 demoLight (some 0) none).toOption = some ⟨10, 30, false, false⟩ := by
  refine ⟨⟨by decide, by decide⟩, ⟨"ten", by decide, by decide +kernel⟩, ⟨"thirty", by decide, by decide +kernel⟩, by decide, by decide +kernel, by decide +kernel, by decide +kernel, by decide +kernel⟩

example : Tidy demoLight2 ∧ "z" ∉ demoLight2.columns ∧ (callS2 demoParse 1 demoLight2 none [1, 9, 40] [0, 3, 0]).toOption = some [[1, 2], [4, 5], [0, 0]] := by
  refine ⟨⟨by decide, by decide⟩, by decide, by decide +kernel⟩

/-! ### Scintillation photons -/

/-- **C118**: one number of photons per hit, drawn with mean the energy of the hit over the yield; `ValueError` exactly when one of the means is negative. -/
theorem scintillation_spec (draw : Nat → ℚ → Nat) (energies : List ℚ) (ws : ℚ) :
    ((∃ e ∈ energies, e / ws < 0) → scintillation draw energies ws = .error .valueError) ∧
    ((∀ e ∈ energies, 0 ≤ e / ws) → ∃ n, scintillation draw energies ws = .ok n ∧ n.length = energies.length ∧ ∀ (i : Nat) (e : ℚ), energies[i]? = some e → n[i]? = some (draw i (e / ws))) := by
  unfold scintillation
  refine ⟨fun ⟨e, he, h⟩ => ?_, fun h => ?_⟩
  · rw [if_pos (List.any_eq_true.2 ⟨e, he, by simpa using h⟩)]
  · rw [if_neg]
    · refine ⟨_, rfl, by simp, fun i e he => ?_⟩
      rw [List.getElem?_mapIdx, he]
      rfl
    · intro hc
      obtain ⟨e, he, h'⟩ := List.any_eq_true.1 hc
      have := h e he
      have h' : e / ws < 0 := by simpa using h'
      linarith

example : (scintillation (fun i m => i + m.floor.toNat) [10, 25] 5).toOption = some [2, 6] ∧ (scintillation (fun _ _ => 0) [10, -1] 5).toOption = none := by decide +kernel

end Verif.ParamFiles
