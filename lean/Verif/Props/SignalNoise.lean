import Verif.Spec.SignalNoise
import Verif.Props.HitBuilder
import Verif.Props.SamplingMulti
import Verif.Props.SeedsPeak
import Verif.Lemmas.Lists
/-!
# C128: the charge of the SiPMs as signal to noise
-/
namespace Verif.SignalNoise
open Verif.PMaps (Peak Responses ValidPeak)
open Verif.Sampling (Sampler DarkModel darkExpectation roundEven)

theorem ratio_spec (sqrt : ℚ → ℚ) (q : ℚ) (d : Option ℚ) (v : Val) : ratio sqrt q d = v ↔ IsRatio sqrt q d v := by
  constructor
  · rintro rfl
    cases d with
    | none => exact Or.inl ⟨rfl, rfl⟩
    | some d =>
      simp only [ratio]
      split
      · exact ⟨d, rfl, Or.inl ‹_›⟩
      · rename_i h1
        split
        · rename_i h2
          split
          · rename_i h3
            exact ⟨d, rfl, Or.inr ⟨h3, by rw [h3, zero_add] at h2; exact h2⟩⟩
          · exact ⟨d, rfl, h2, ‹_›, by simp⟩
        · rename_i h2
          exact Or.inr ⟨d, rfl, lt_of_le_of_ne (not_lt.1 h1) (Ne.symm h2), rfl⟩
  · intro h
    cases v with
    | num v =>
      rcases h with ⟨rfl, rfl⟩ | ⟨d', rfl, h1, rfl⟩
      · rfl
      · simp only [ratio]; rw [if_neg (not_lt.2 h1.le), if_neg h1.ne']
    | inf b =>
      obtain ⟨d', rfl, h1, h2, h3⟩ := h
      simp only [ratio]
      rw [if_neg (by rw [h1]; exact lt_irrefl _), if_pos h1, if_neg h2]
      congr 1
      rw [Bool.eq_iff_iff, h3]; simp
    | nan =>
      obtain ⟨d', rfl, h | ⟨rfl, rfl⟩⟩ := h
      · simp only [ratio]; rw [if_pos h]
      · simp [ratio]

/-- **C128** The signal to noise of some SiPMs exists exactly when the width is of at least one sample, the dark levels exist and all the sensors have one; the value of each sensor is its charge divided by the root of its charge plus its own dark level. -/
theorem signal_iff (sqrt : ℚ → ℚ) (s : Sampler) (m : DarkModel) (ids : List Nat) (charges : List ℚ) (hl : charges.length = ids.length) (width : Int) (vs : List Val) :
    signalToNoise sqrt s m ids charges width = .ok vs ↔
      1 ≤ width ∧ ∃ dark, darkExpectation s (width - 1).toNat m = .ok dark ∧ (∀ i ∈ ids, i < dark.length) ∧ vs.length = ids.length ∧
        ∀ (k i : Nat) (q : ℚ) (d : Option ℚ) (v : Val), ids[k]? = some i → charges[k]? = some q → dark[i]? = some d → vs[k]? = some v → IsRatio sqrt q d v := by
  unfold signalToNoise
  split
  · constructor
    · intro h; cases h
    · rintro ⟨h, _⟩; omega
  rename_i hw
  rw [not_lt] at hw
  cases hd : darkExpectation s (width - 1).toNat m with
  | error e => simp
  | ok dark =>
    by_cases hb : ∀ i ∈ ids, i < dark.length
    · obtain ⟨levels, ht, hlen, hget⟩ := npTake_ok dark ids hb
      simp only [ht, Except.ok.injEq]
      constructor
      · rintro rfl
        refine ⟨hw, dark, rfl, hb, by simp [hlen, hl], fun k i q d v hk hq hd hv => ?_⟩
        obtain ⟨q', d', h1, h2, rfl⟩ := List.getElem?_zipWith_eq_some.1 hv
        rw [hq] at h1; cases h1
        have := hget k i hk
        rw [this, hd] at h2; cases h2
        exact (ratio_spec _ _ _ _).1 rfl
      · rintro ⟨_, dark', hd', _, hvl, hv⟩
        cases hd'
        apply List.ext_getElem?
        intro k
        by_cases hk : k < ids.length
        · have hi : ids[k]? = some ids[k] := List.getElem?_eq_getElem hk
          have hq : charges[k]? = some charges[k] := List.getElem?_eq_getElem (by omega)
          have hdk : dark[ids[k]]? = some (dark[ids[k]]'(hb _ (List.getElem_mem hk))) := List.getElem?_eq_getElem _
          have hvk : vs[k]? = some vs[k] := List.getElem?_eq_getElem (by omega)
          have := (ratio_spec _ _ _ _).2 (hv _ _ _ _ _ hi hq hdk hvk)
          rw [hvk, List.getElem?_zipWith, hq, hget k _ hi, hdk]
          simp [this]
        · rw [List.getElem?_eq_none (by simp; omega), List.getElem?_eq_none (by omega)]
    · have : ∀ levels, npTake dark ids ≠ .ok levels := by
        intro levels h
        apply hb
        intro i hi
        obtain ⟨k, hk⟩ := List.getElem?_of_mem hi
        obtain ⟨y, _, hy⟩ := Seeds.forall₂_ex (Seeds.getElem?_of_npTake h) hk
        exact (List.getElem?_eq_some_iff.1 hy).1
      cases ht : npTake dark ids with
      | ok l => exact absurd ht (this l)
      | error e =>
        simp only [ht]
        constructor
        · intro h; cases h
        · rintro ⟨_, dark', hd', h, _⟩
          cases hd'
          exact absurd h hb

/-- **C128** The exceptions: `ValueError` for a width of less than one sample; what the dark levels raise; `IndexError` for a sensor without dark level. -/
theorem signal_errors (sqrt : ℚ → ℚ) (s : Sampler) (m : DarkModel) (ids : List Nat) (charges : List ℚ) (width : Int) (e : PyErr) :
    signalToNoise sqrt s m ids charges width = .error e ↔
      (width < 1 ∧ e = .valueError) ∨ (1 ≤ width ∧ darkExpectation s (width - 1).toNat m = .error e) ∨
      (1 ≤ width ∧ e = .indexError ∧ ∃ dark, darkExpectation s (width - 1).toNat m = .ok dark ∧ ∃ i ∈ ids, dark.length ≤ i) := by
  unfold signalToNoise
  split
  · rename_i hw
    constructor
    · intro h; cases h; exact Or.inl ⟨hw, rfl⟩
    · rintro (⟨_, rfl⟩ | ⟨h, _⟩ | ⟨h, _⟩)
      · rfl
      · omega
      · omega
  rename_i hw
  rw [not_lt] at hw
  cases hd : darkExpectation s (width - 1).toNat m with
  | error e' =>
    dsimp only
    constructor
    · intro h; cases h; exact Or.inr (Or.inl ⟨hw, rfl⟩)
    · rintro (⟨h, _⟩ | ⟨_, h⟩ | ⟨_, _, d, h, _⟩)
      · omega
      · (cases h; rfl)
      · cases h
  | ok dark =>
    have herr : ∀ is : List Nat, (∃ i ∈ is, dark.length ≤ i) → npTake dark is = .error .indexError := by
      intro is
      induction is with
      | nil => rintro ⟨i, hi, _⟩; cases hi
      | cons i is ih =>
        rintro ⟨j, hj, hle⟩
        unfold npTake at ih ⊢
        rw [List.mapM_cons]
        cases hi : dark[i]? with
        | none => rfl
        | some x =>
          rcases List.mem_cons.1 hj with rfl | hj
          · rw [List.getElem?_eq_none hle] at hi; cases hi
          · rw [ih ⟨j, hj, hle⟩]; rfl
    by_cases hb : ∃ i ∈ ids, dark.length ≤ i
    · simp only [herr ids hb]
      constructor
      · intro h; cases h; exact Or.inr (Or.inr ⟨hw, rfl, dark, rfl, hb⟩)
      · rintro (⟨h, _⟩ | ⟨_, h⟩ | ⟨_, h, _⟩)
        · omega
        · cases h
        · rw [h]
    · obtain ⟨levels, ht, _⟩ := npTake_ok dark ids (fun i hi => not_le.1 fun h => hb ⟨i, hi, h⟩)
      simp only [ht]
      constructor
      · intro h; cases h
      · rintro (⟨h, _⟩ | ⟨_, h⟩ | ⟨_, _, d, h, h2⟩)
        · omega
        · cases h
        · cases h; exact absurd h2 hb

/-- **C128** The value of a sensor does not depend on the other sensors: the same charge of the same sensor, for the same width, gives the same value in any two arrays. -/
theorem own_sensor {sqrt : ℚ → ℚ} {s : Sampler} {m : DarkModel} {ids ids' : List Nat} {charges charges' : List ℚ} {width : Int} {vs vs' : List Val}
    (hl : charges.length = ids.length) (hl' : charges'.length = ids'.length)
    (h : signalToNoise sqrt s m ids charges width = .ok vs) (h' : signalToNoise sqrt s m ids' charges' width = .ok vs')
    {k k' i : Nat} {q : ℚ} (hi : ids[k]? = some i) (hq : charges[k]? = some q) (hi' : ids'[k']? = some i) (hq' : charges'[k']? = some q) : vs[k]? = vs'[k']? := by
  obtain ⟨_, dark, hd, hb, hvl, hv⟩ := (signal_iff _ _ _ _ _ hl _ _).1 h
  obtain ⟨_, dark', hd', hb', hvl', hv'⟩ := (signal_iff _ _ _ _ _ hl' _ _).1 h'
  rw [hd] at hd'; cases hd'
  have hk := (List.getElem?_eq_some_iff.1 hi).1
  have hk' := (List.getElem?_eq_some_iff.1 hi').1
  have hdk : dark[i]? = some (dark[i]'(hb _ (List.mem_of_getElem? hi))) := List.getElem?_eq_getElem _
  have h1 : vs[k]? = some vs[k] := List.getElem?_eq_getElem (by omega)
  have h2 : vs'[k']? = some vs'[k'] := List.getElem?_eq_getElem (by omega)
  have e1 := (ratio_spec _ _ _ _).2 (hv _ _ _ _ _ hi hq hdk h1)
  have e2 := (ratio_spec _ _ _ _).2 (hv' _ _ _ _ _ hi' hq' hdk h2)
  rw [h1, h2, ← e1, ← e2]

/-- **C128** With a positive dark level and a charge that is not negative the signal to noise is a number with the sign of the charge. -/
theorem ratio_sign {sqrt : ℚ → ℚ} (hs : PositiveRoot sqrt) {q d : ℚ} (hq : 0 ≤ q) (hd : 0 < d) {v : Val} (h : IsRatio sqrt q (some d) v) :
    ∃ x, v = .num x ∧ 0 ≤ x ∧ (x = 0 ↔ q = 0) ∧ x * sqrt (q + d) = q := by
  rw [← ratio_spec] at h
  have hp : 0 < q + d := by linarith
  simp only [ratio] at h
  rw [if_neg (not_lt.2 hp.le), if_neg hp.ne'] at h
  have hr := hs _ hp
  refine ⟨_, h.symm, div_nonneg hq hr.le, ?_, div_mul_cancel₀ _ hr.ne'⟩
  rw [div_eq_zero_iff]
  constructor
  · rintro (h | h)
    · exact h
    · exact absurd h hr.ne'
  · exact Or.inl

/-- **C128** More charge gives more signal to noise, and more noise gives less (where the roots are exact); it is never more than the root of the charge. -/
theorem ratio_monotone {sqrt : ℚ → ℚ} {q q' d d' x x' : ℚ} (hq : 0 ≤ q) (hqq : q ≤ q') (hd : 0 ≤ d') (hdd : d' ≤ d) (hs : ExactAt sqrt (q + d)) (hs' : ExactAt sqrt (q' + d'))
    (h : IsRatio sqrt q (some d) (.num x)) (h' : IsRatio sqrt q' (some d') (.num x')) : x ≤ x' ∧ x * x ≤ q ∧ (q < q' → x < x') := by
  obtain ⟨s1, s2⟩ := hs
  obtain ⟨t1, t2⟩ := hs'
  rcases h with ⟨h, _⟩ | ⟨d1, h, hp, hx⟩
  · cases h
  cases h
  rcases h' with ⟨h', _⟩ | ⟨d2, h', hp', hx'⟩
  · cases h'
  cases h'
  have hs0 : 0 < sqrt (q + d) := lt_of_le_of_ne s1 (fun h => by rw [← h] at s2; linarith)
  have ht0 : 0 < sqrt (q' + d') := lt_of_le_of_ne t1 (fun h => by rw [← h] at t2; linarith)
  have ex : x * sqrt (q + d) = q := by rw [hx]; exact div_mul_cancel₀ _ hs0.ne'
  have ex' : x' * sqrt (q' + d') = q' := by rw [hx']; exact div_mul_cancel₀ _ ht0.ne'
  have hx0 : 0 ≤ x := by rw [hx]; exact div_nonneg hq hs0.le
  have hx0' : 0 ≤ x' := by rw [hx']; exact div_nonneg (hq.trans hqq) ht0.le
  have sq : x * x * (q + d) = q * q := by rw [← s2, ← mul_mul_mul_comm, ex]
  have sq' : x' * x' * (q' + d') = q' * q' := by rw [← t2, ← mul_mul_mul_comm, ex']
  have hq' : 0 ≤ q' := hq.trans hqq
  have hd0 : 0 ≤ d := hd.trans hdd
  have key : q * q * (q' + d') ≤ q' * q' * (q + d) := by
    nlinarith [mul_nonneg (mul_nonneg hq hq') (sub_nonneg.2 hqq), mul_le_mul (mul_le_mul hqq hqq hq hq') hdd hd (mul_nonneg hq' hq')]
  have hAB : 0 < (q + d) * (q' + d') := mul_pos hp hp'
  have e1 : x * x * ((q + d) * (q' + d')) = q * q * (q' + d') := by rw [← mul_assoc, sq]
  have e2 : x' * x' * ((q + d) * (q' + d')) = q' * q' * (q + d) := by rw [mul_comm (q + d), ← mul_assoc, sq']
  refine ⟨?_, ?_, fun hlt => ?_⟩
  · have h2 : x * x ≤ x' * x' := le_of_mul_le_mul_right (by rw [e1, e2]; exact key) hAB
    exact le_of_not_gt fun h => absurd (mul_lt_mul'' h h hx0' hx0') (not_lt.2 h2)
  · have : x * x * (q + d) ≤ q * (q + d) := by rw [sq]; nlinarith [mul_nonneg hq hd0]
    exact le_of_mul_le_mul_right this hp
  · have hpos : 0 < q' := lt_of_le_of_lt hq hlt
    have key' : q * q * (q' + d') < q' * q' * (q + d) := by
      rcases hq.eq_or_lt with h0 | h0
      · subst h0
        rw [zero_add] at hp ⊢
        simpa using mul_pos (mul_pos hpos hpos) hp
      · nlinarith [mul_pos (mul_pos h0 hpos) (sub_pos.2 hlt), mul_le_mul (mul_le_mul hqq hqq hq hq') hdd hd (mul_nonneg hq' hq')]
    have h2 : x * x < x' * x' := lt_of_mul_lt_mul_right (by rw [e1, e2]; exact key') hAB.le
    exact lt_of_not_ge fun h => absurd (mul_le_mul h h hx0' hx0) (not_le.2 h2)

/-! ### Widths -/

theorem roundEven_nearest (w : ℚ) : Nearest w (roundEven w) := by
  have h1 := Int.floor_le w
  have h2 := Int.lt_floor_add_one w
  unfold Nearest roundEven
  split
  · rename_i h
    have e : |w - (⌊w⌋ : ℚ)| = w - ⌊w⌋ := abs_of_nonneg (by linarith)
    rw [e]
    exact ⟨h.le, fun h' => by linarith⟩
  · split
    · rename_i h
      have e : |w - ((⌊w⌋ + 1 : Int) : ℚ)| = ⌊w⌋ + 1 - w := by rw [abs_of_neg (by push_cast; linarith)]; push_cast; ring
      rw [e]
      exact ⟨by linarith, fun h' => by linarith⟩
    · rename_i h h'
      have hh : w - ⌊w⌋ = 1 / 2 := le_antisymm (not_lt.1 h') (not_lt.1 h)
      split
      · rename_i h3
        have e : |w - (⌊w⌋ : ℚ)| = 1 / 2 := by rw [hh]; norm_num
        exact ⟨e.le, fun _ => h3⟩
      · rename_i h3
        have e : |w - ((⌊w⌋ + 1 : Int) : ℚ)| = 1 / 2 := by
          push_cast
          rw [show w - ((⌊w⌋ : ℚ) + 1) = -(1 / 2) by linarith, abs_neg]; norm_num
        exact ⟨e.le, fun _ => by omega⟩

theorem nearest_unique {w : ℚ} {r r' : Int} (h : Nearest w r) (h' : Nearest w r') : r = r' := by
  obtain ⟨a1, a2⟩ := h
  obtain ⟨b1, b2⟩ := h'
  have ha := abs_le.1 a1
  have hb := abs_le.1 b1
  by_contra hne
  rcases lt_or_gt_of_ne hne with hlt | hlt
  · have : (r : ℚ) + 1 ≤ r' := by exact_mod_cast hlt
    have e1 : w - r = 1 / 2 := by linarith
    have e2 : w - r' = -(1 / 2) := by linarith
    have c1 := a2 (by rw [e1]; norm_num)
    have c2 := b2 (by rw [e2, abs_neg]; norm_num)
    have : r' = r + 1 := by exact_mod_cast (by linarith : (r' : ℚ) = r + 1)
    omega
  · have : (r' : ℚ) + 1 ≤ r := by exact_mod_cast hlt
    have e1 : w - r' = 1 / 2 := by linarith
    have e2 : w - r = -(1 / 2) := by linarith
    have c1 := b2 (by rw [e1]; norm_num)
    have c2 := a2 (by rw [e2, abs_neg]; norm_num)
    have : r = r' + 1 := by exact_mod_cast (by linarith : (r : ℚ) = r' + 1)
    omega

/-- **C128** The number of samples of a width: the whole microseconds, rounding up, of the width rounded to the ns. -/
theorem width_iff (w : ℚ) (n : Int) : sampleWidth w = n ↔ ∃ r, Nearest w r ∧ 1000 * (n - 1) < r ∧ r ≤ 1000 * n := by
  unfold sampleWidth
  rw [Int.ceil_eq_iff]
  constructor
  · rintro ⟨h1, h2⟩
    refine ⟨_, roundEven_nearest w, ?_, ?_⟩
    · have : ((1000 * (n - 1) : Int) : ℚ) < roundEven w := by push_cast; rw [lt_div_iff₀ (by norm_num)] at h1; linarith
      exact_mod_cast this
    · have : (roundEven w : ℚ) ≤ ((1000 * n : Int) : ℚ) := by push_cast; rw [div_le_iff₀ (by norm_num)] at h2; linarith
      exact_mod_cast this
  · rintro ⟨r, hr, h1, h2⟩
    rw [nearest_unique (roundEven_nearest w) hr, lt_div_iff₀ (by norm_num), div_le_iff₀ (by norm_num)]
    constructor
    · have : ((1000 * (n - 1) : Int) : ℚ) < r := by exact_mod_cast h1
      push_cast at this; linarith
    · have : (r : ℚ) ≤ ((1000 * n : Int) : ℚ) := by exact_mod_cast h2
      push_cast at this; linarith

/-- **C128** The widths accepted are those of more than half a ns. -/
theorem width_accepted (w : ℚ) : 1 ≤ sampleWidth w ↔ 1 / 2 < w := by
  have hn := roundEven_nearest w
  have hc : 1 ≤ sampleWidth w ↔ 1 ≤ roundEven w := by
    unfold sampleWidth
    rw [Int.one_le_ceil_iff]
    constructor
    · intro h
      have : (0 : ℚ) < roundEven w := by
        by_contra hle
        exact absurd h (not_lt.2 (div_nonpos_of_nonpos_of_nonneg (not_lt.1 hle) (by norm_num)))
      have : 0 < roundEven w := by exact_mod_cast this
      omega
    · intro h
      have : (0 : ℚ) < roundEven w := by exact_mod_cast h
      positivity
  rw [hc]
  obtain ⟨h1, h2⟩ := hn
  have h3 := abs_le.1 h1
  constructor
  · intro h
    have h' : (1 : ℚ) ≤ roundEven w := by exact_mod_cast h
    rcases lt_or_eq_of_le h' with h4 | h4
    · have : (2 : ℚ) ≤ roundEven w := by exact_mod_cast (by exact_mod_cast h4 : (1 : Int) < roundEven w)
      linarith
    · by_contra hle
      have e : w - roundEven w = -(1 / 2) := by linarith [not_lt.1 hle]
      have := h2 (by rw [e, abs_neg]; norm_num)
      have h5 : roundEven w = 1 := by exact_mod_cast h4.symm
      omega
  · intro h
    by_contra hlt
    have : (roundEven w : ℚ) ≤ 0 := by exact_mod_cast (by omega : roundEven w ≤ 0)
    linarith

/-! ### Peaks -/

theorem peak_facts {p : Peak} (hp : ValidPeak p) (hne : p.sipms.ids ≠ []) :
    p.sipms.wfs.WF ∧ p.sipms.wfs.ncols = p.times.length ∧ p.sipms.ids.length = p.sipms.wfs.rows.length := by
  rcases hp.sipm with h | ⟨h1, h2, h3, _⟩
  · rw [h] at hne; exact absurd rfl hne
  · exact ⟨h1, h2, h3⟩

/-- **C128** The charges of a whole peak: of each SiPM, its total charge against its own dark level for the width of the peak (C16). -/
theorem point_value {sqrt : ℚ → ℚ} {s : Sampler} {p : Peak} (hp : ValidPeak p) (hne : p.sipms.ids ≠ []) {vs : List Val} (h : snPoint sqrt s p = .ok vs) :
    ∃ dark, DarkLevels s (sampleWidth p.width) dark ∧ vs.length = p.sipms.ids.length ∧
      ∀ (k i : Nat) (row : List ℚ) (v : Val), p.sipms.ids[k]? = some i → p.sipms.wfs.rows[k]? = some row → vs[k]? = some v → ∃ d, dark[i]? = some d ∧ IsRatio sqrt row.sum d v := by
  obtain ⟨_, _, h3⟩ := peak_facts hp hne
  have hl : p.sipms.sumOverTimes.length = p.sipms.ids.length := by simp [Responses.sumOverTimes, Mat.sumTimes, h3]
  obtain ⟨hw, dark, hd, hb, hvl, hv⟩ := (signal_iff _ _ _ _ _ hl _ _).1 h
  refine ⟨dark, ⟨hw, hd⟩, hvl, fun k i row v hi hr hk => ?_⟩
  have hdk : dark[i]? = some (dark[i]'(hb _ (List.mem_of_getElem? hi))) := List.getElem?_eq_getElem _
  exact ⟨_, hdk, hv k i row.sum _ v hi (by simp [Responses.sumOverTimes, Mat.sumTimes, hr]) hdk hk⟩

/-- **C128** The charges by slices: one array per time bin of the peak; of each SiPM, its charge in that bin against its own dark level for the width of that bin. -/
theorem slices_value {sqrt : ℚ → ℚ} {s : Sampler} {p : Peak} (hp : ValidPeak p) (hne : p.sipms.ids ≠ []) {vss : List (List Val)} (h : snSlices sqrt s p = .ok vss) :
    vss.length = p.times.length ∧
    ∀ (j : Nat) (w : ℚ) (vs : List Val), p.widths[j]? = some w → vss[j]? = some vs →
      ∃ dark, DarkLevels s (sampleWidth w) dark ∧ vs.length = p.sipms.ids.length ∧
        ∀ (k i : Nat) (row : List ℚ) (q : ℚ) (v : Val), p.sipms.ids[k]? = some i → p.sipms.wfs.rows[k]? = some row → row[j]? = some q → vs[k]? = some v →
          ∃ d, dark[i]? = some d ∧ IsRatio sqrt q d v := by
  obtain ⟨hwf, h2, h3⟩ := peak_facts hp hne
  unfold snSlices at h
  rw [mapM_ok_iff] at h
  have hlen := h.length_eq
  simp only [List.length_zip, List.length_map, List.length_range, h2, hp.widths, min_self] at hlen
  refine ⟨hlen.symm, fun j w vs hw hv => ?_⟩
  have hj : j < p.times.length := by rw [← hp.widths]; exact (List.getElem?_eq_some_iff.1 hw).1
  have hz : (((List.range p.sipms.wfs.ncols).map fun j => p.sipms.wfs.rows.map fun r => r.getD j 0).zip p.widths)[j]? = some (p.sipms.wfs.rows.map (fun r => r.getD j 0), w) := by
    rw [List.getElem?_zip_eq_some]
    refine ⟨?_, hw⟩
    rw [List.getElem?_map, List.getElem?_range (by omega)]; rfl
  have hs := forall₂_getElem? h j _ _ hz hv
  have hl : (p.sipms.wfs.rows.map (fun r => r.getD j 0)).length = p.sipms.ids.length := by simp [h3]
  obtain ⟨hw1, dark, hd, hb, hvl, hval⟩ := (signal_iff _ _ _ _ _ hl _ _).1 hs
  refine ⟨dark, ⟨hw1, hd⟩, hvl, fun k i row q v hi hr hq hk => ?_⟩
  have hdk : dark[i]? = some (dark[i]'(hb _ (List.mem_of_getElem? hi))) := List.getElem?_eq_getElem _
  refine ⟨_, hdk, hval k i q _ v hi ?_ hdk hk⟩
  rw [List.getElem?_map, hr]
  simp [List.getD_eq_getElem?_getD, hq]

/-- **C128** A peak of one bin has the same values as a whole and by slices. -/
theorem one_bin (sqrt : ℚ → ℚ) (s : Sampler) {p : Peak} (hp : ValidPeak p) (hne : p.sipms.ids ≠ []) {t e : ℚ} (ht : p.times = [t]) (he : p.pmts.sumOverSensors = [e]) (hpos : 0 < e) :
    snSlices sqrt s p = (match snPoint sqrt s p with | .error x => .error x | .ok vs => .ok [vs]) := by
  obtain ⟨hwf, h2, h3⟩ := peak_facts hp hne
  have hwl := hp.widths
  rw [ht] at hwl h2
  obtain ⟨w, hw⟩ := List.length_eq_one_iff.1 hwl
  have hwidth : p.width = w := by
    simp [Peak.width, Peak.widthAbove, Responses.whereAbove, he, whereIdx_cons, whereIdx_nil, hpos, hw, pySlice]
  have hq : p.sipms.sumOverTimes = p.sipms.wfs.rows.map fun r => r.getD 0 0 := by
    unfold Responses.sumOverTimes Mat.sumTimes
    apply List.map_congr_left
    intro r hr
    obtain ⟨x, hx⟩ := List.length_eq_one_iff.1 (by rw [hwf r hr, h2]; rfl : r.length = 1)
    simp [hx]
  unfold snSlices snPoint
  rw [hwidth, hq, h2, hw]
  simp only [List.length_singleton, List.range_one, List.map_cons, List.map_nil, List.zip_cons_cons, List.zip_nil_right, List.mapM_cons, List.mapM_nil]
  cases signalToNoise sqrt s .threshold p.sipms.ids (p.sipms.wfs.rows.map fun r => r.getD 0 0) (sampleWidth w) <;> rfl

/-! ### Hits -/

theorem usable_signal {sqrt : ℚ → ℚ} (hs : PositiveRoot sqrt) {s : Sampler} {p : Peak} (hu : Usable s p) {charges : List ℚ} (hl : charges.length = p.sipms.ids.length)
    (hq : ∀ q ∈ charges, 0 ≤ q) {w : ℚ} (hw : 1 / 2 < w) (hm : w ∈ p.widths ∨ w = p.width) :
    ∃ vs, signalToNoise sqrt s .threshold p.sipms.ids charges (sampleWidth w) = .ok vs ∧ vs.length = p.sipms.ids.length ∧ ∀ v ∈ vs, ∃ x, v = .num x ∧ 0 ≤ x := by
  obtain ⟨dark, ⟨_, hd⟩, hlev⟩ := hu.levels w hm
  have hb : ∀ i ∈ p.sipms.ids, i < dark.length := fun i hi => by
    obtain ⟨d, h, _⟩ := hlev i hi
    exact (List.getElem?_eq_some_iff.1 h).1
  obtain ⟨levels, ht, hlen, hget⟩ := npTake_ok dark p.sipms.ids hb
  have hok : signalToNoise sqrt s .threshold p.sipms.ids charges (sampleWidth w) = .ok (List.zipWith (ratio sqrt) charges levels) := by
    unfold signalToNoise
    rw [if_neg (not_lt.2 ((width_accepted w).2 hw)), hd]
    simp only [ht]
  refine ⟨_, hok, by simp [hl, hlen], fun v hv => ?_⟩
  obtain ⟨k, hk⟩ := List.getElem?_of_mem hv
  obtain ⟨q, d, h1, h2, rfl⟩ := List.getElem?_zipWith_eq_some.1 hk
  have hkl : k < p.sipms.ids.length := by rw [← hlen]; exact (List.getElem?_eq_some_iff.1 h2).1
  have hi : p.sipms.ids[k]? = some p.sipms.ids[k] := List.getElem?_eq_getElem hkl
  rw [hget k _ hi] at h2
  obtain ⟨d', h3, h4⟩ := hlev _ (List.getElem_mem hkl)
  rw [h3] at h2; cases h2
  cases d with
  | none => exact ⟨0, rfl, le_rfl⟩
  | some d =>
    obtain ⟨x, hx, h0, _⟩ := ratio_sign hs (hq q (List.mem_of_getElem? h1)) (h4 d rfl) ((ratio_spec sqrt q (some d) _).1 rfl)
    exact ⟨x, hx, h0⟩

/-- **C128** Peaks with charges that are not negative and SiPMs with a positive dark level always have signal to noise, as a whole and by slices, and all the values are numbers that are not negative. -/
theorem usable_values {sqrt : ℚ → ℚ} (hs : PositiveRoot sqrt) {s : Sampler} {p : Peak} (hu : Usable s p) :
    (∃ vs, snPoint sqrt s p = .ok vs ∧ ∀ v ∈ vs, ∃ x, v = .num x ∧ 0 ≤ x) ∧
    ∃ vss, snSlices sqrt s p = .ok vss ∧ ∀ vs ∈ vss, vs.length = p.sipms.ids.length ∧ ∀ v ∈ vs, ∃ x, v = .num x ∧ 0 ≤ x := by
  obtain ⟨hwf, h2, h3⟩ := peak_facts hu.valid hu.sipms
  constructor
  · obtain ⟨vs, h, _, hv⟩ := usable_signal hs hu (charges := p.sipms.sumOverTimes) (by simp [Responses.sumOverTimes, Mat.sumTimes, h3])
      (by
        intro q hq
        obtain ⟨r, hr, rfl⟩ := List.mem_map.1 hq
        exact List.sum_nonneg (hu.charges r hr)) hu.whole (Or.inr rfl)
    exact ⟨vs, h, hv⟩
  · have hall : ∀ x ∈ ((List.range p.sipms.wfs.ncols).map fun j => p.sipms.wfs.rows.map fun r => r.getD j 0).zip p.widths,
        ∃ vs, signalToNoise sqrt s .threshold p.sipms.ids x.1 (sampleWidth x.2) = .ok vs ∧ vs.length = p.sipms.ids.length ∧ ∀ v ∈ vs, ∃ x, v = .num x ∧ 0 ≤ x := by
      rintro ⟨c, w⟩ hx
      obtain ⟨hc, hw⟩ := List.of_mem_zip hx
      obtain ⟨j, _, rfl⟩ := List.mem_map.1 hc
      refine usable_signal hs hu (by simp [h3]) ?_ (hu.bins w hw) (Or.inl hw)
      intro q hq
      obtain ⟨r, hr, rfl⟩ := List.mem_map.1 hq
      rw [List.getD_eq_getElem?_getD]
      cases hj : r[j]? with
      | none => simp
      | some y => simpa using hu.charges r hr y (List.mem_of_getElem? hj)
    obtain ⟨vss, hv⟩ := mapM_ok (fun x hx => (hall x hx).imp fun _ h => h.1)
    refine ⟨vss, hv, fun vs hvs => ?_⟩
    obtain ⟨x, hx, hxv⟩ := KrEvent.forall₂_mem_right (mapM_ok_iff.1 hv) hvs
    obtain ⟨vs', h1, h4⟩ := hall x hx
    rw [h1] at hxv; cases hxv
    exact h4

theorem slice_charges_ok {sqrt : ℚ → ℚ} {s : Sampler} {p : Peak} {qss : List (List ℚ)} : sliceCharges sqrt s p = .ok qss ↔ ∃ vss, snSlices sqrt s p = .ok vss ∧ qss = vss.map fun l => l.map Val.number := by
  unfold sliceCharges
  cases snSlices sqrt s p with
  | error e => simp
  | ok v => simp [eq_comm]

theorem sized_sn {sqrt : ℚ → ℚ} {s : Sampler} {b : HitBuilder.Builder} (h : b.sliceCharges = sliceCharges sqrt s) : HitBuilder.Sized b := by
  intro q hq hne charges hc
  rw [h] at hc
  obtain ⟨vss, hv, rfl⟩ := slice_charges_ok.1 hc
  simp [(slices_value hq hne hv).1]

theorem rows_ok {sqrt : ℚ → ℚ} (hs : PositiveRoot sqrt) {s : Sampler} {b : HitBuilder.Builder} (h1 : b.pointCharges = pointCharges sqrt s) (h2 : b.sliceCharges = sliceCharges sqrt s)
    (hr : HitBuilder.RecoOk b) {event : Int} {time s1t : ℚ} {k : Nat} {p : Peak} (hp : HitBuilder.GoodS2 b p) (hu : ∀ q, Peaks.rebinPeak p b.rebin = .ok q → Usable s q) :
    ∃ blocks, HitBuilder.peakRows b event time s1t k p = .ok blocks := by
  obtain ⟨q, hq, hv, _, g4, _⟩ := PMaps.rebinPeak_conserves p hp.valid b.rebin
  have hids : q.sipms.ids ≠ [] := by rw [g4]; exact hp.sipms
  have hne : q.sipms ≠ Responses.empty := fun h => hids (by rw [h]; rfl)
  obtain ⟨xys, hx, hxl, _⟩ := npTake_ok b.xys q.sipms.ids (fun i hi => hp.inDb i (by rw [← g4]; exact hi))
  obtain ⟨⟨vs, hvs, _⟩, vss, hvss, hlen⟩ := usable_values hs (hu q hq)
  have hg : ∃ pos, HitBuilder.globalReco b xys (vs.map Val.number) = .ok pos := by
    rcases hr xys (vs.map Val.number) with ⟨c, cs, h⟩ | ⟨e, h, he⟩
    · exact ⟨c, by simp [HitBuilder.globalReco, h]⟩
    · exact ⟨(Hits.NN, Hits.NN), by simp only [HitBuilder.globalReco, h, (KrEvent.recoFail_iff _).2 he, if_true]⟩
  obtain ⟨pos, hg⟩ := hg
  simp only [HitBuilder.peakRows, hq, bind, Except.bind, KrEvent.positions, hne, if_false, hx, h1, pointCharges, hvs, hg, h2, sliceCharges, hvss]
  refine mapM_ok fun x hx => ?_
  have hm : x.2.2 ∈ vss.map fun l => l.map Val.number := (List.of_mem_zip (List.of_mem_zip hx).2).2
  obtain ⟨l, hl, he⟩ := List.mem_map.1 hm
  rw [HitBuilder.sliceRows, if_neg (by rw [← he, List.length_map, hxl, (hlen l hl).1]; simp)]
  exact ⟨_, rfl⟩

theorem all_rows_ok {sqrt : ℚ → ℚ} (hs : PositiveRoot sqrt) {s : Sampler} {b : HitBuilder.Builder} (h1 : b.pointCharges = pointCharges sqrt s) (h2 : b.sliceCharges = sliceCharges sqrt s)
    (hr : HitBuilder.RecoOk b) {event : Int} {time s1t : ℚ} :
    ∀ (l : List ((Bool × Peak) × Nat)), (∀ x ∈ l, x.1.1 = true → HitBuilder.GoodS2 b x.1.2 ∧ ∀ q, Peaks.rebinPeak x.1.2 b.rebin = .ok q → Usable s q) →
      ∃ out, HitBuilder.peaksRows b event time s1t l = .ok out
  | [], _ => ⟨[], rfl⟩
  | ((false, p), k) :: rest, h => by
    obtain ⟨out, ho⟩ := all_rows_ok hs h1 h2 hr (event := event) (time := time) (s1t := s1t) rest (fun x hx => h x (List.mem_cons_of_mem _ hx))
    exact ⟨out, by simpa [HitBuilder.peaksRows] using ho⟩
  | ((true, p), k) :: rest, h => by
    obtain ⟨out, ho⟩ := all_rows_ok hs h1 h2 hr (event := event) (time := time) (s1t := s1t) rest (fun x hx => h x (List.mem_cons_of_mem _ hx))
    obtain ⟨g1, g2⟩ := h _ List.mem_cons_self rfl
    obtain ⟨a, ha⟩ := rows_ok hs h1 h2 hr (event := event) (time := time) (s1t := s1t) (k := k) g1 g2
    exact ⟨a ++ out, by simp [HitBuilder.peaksRows, ha, ho]⟩

/-- **C128** The hits of an event with signal to noise as charge: they are always built; each hit with a charge is a SiPM of a slice of a selected S2, with its signal to noise, over the threshold;
and the hits of each selected S2 have its energy, but for the epsilon of the division. -/
theorem sn_hits {sqrt : ℚ → ℚ} (hs : PositiveRoot sqrt) {s : Sampler} {b : HitBuilder.Builder} (h1 : b.pointCharges = pointCharges sqrt s) (h2 : b.sliceCharges = sliceCharges sqrt s)
    (hr : HitBuilder.RecoOk b) (hthr : 0 < b.qThr) {f1 f2 : List Bool} {s1s s2s : List Peak} (hn : s2s.length ≤ 65536) {t : ℚ} (ht : HitBuilder.s1Time f1 f2 s1s s2s = .ok t)
    (hsel : HitBuilder.selectedS2s f2 s2s ≠ [])
    (hg : ∀ x ∈ HitBuilder.selectedS2s f2 s2s, HitBuilder.GoodS2 b x.1 ∧ ∀ q, Peaks.rebinPeak x.1 b.rebin = .ok q → Usable s q) (event : Int) (ts : ℚ) :
    ∃ rows, HitBuilder.build b f1 f2 s1s s2s event ts = .ok rows ∧
      (∃ tRef, HitBuilder.RefTime f1 f2 s1s s2s tRef ∧ ∀ r ∈ rows, r.q ≠ -999999 → SnHit sqrt s b tRef (HitBuilder.selectedS2s f2 s2s) r) ∧
      ∀ (k : Nat) (p : Peak), f2[k]? = some true → s2s[k]? = some p → ∃ q, Peaks.rebinPeak p b.rebin = .ok q ∧
        |((rows.filter fun r => r.npeak == k).map HitBuilder.Row.e).sum - (p.pmts.wfs.rows.map List.sum).sum| ≤ (q.pmts.sumOverSensors.map abs).sum * (Hits.EPSILON / b.qThr) := by
  have hg' : ∀ x ∈ (f2.zip s2s).zipIdx, x.1.1 = true → HitBuilder.GoodS2 b x.1.2 ∧ ∀ q, Peaks.rebinPeak x.1.2 b.rebin = .ok q → Usable s q := fun x hx hp =>
    hg (x.1.2, x.2) (List.mem_map.2 ⟨x, List.mem_filter.2 ⟨hx, hp⟩, rfl⟩)
  obtain ⟨out, ho⟩ := all_rows_ok hs h1 h2 hr (event := event) (time := ts * (1 / 1000)) (s1t := t) _ hg'
  have hsz := sized_sn h2
  obtain ⟨blocks, g1, _, g3⟩ := HitBuilder.peaksRows_spec hsz _ (fun x hx hp => (hg' x hx hp).1.valid) ho
  have hne : out ≠ [] := fun hc => by
    rw [g3] at hc
    rw [hc] at g1
    exact hsel (List.forall₂_nil_right_iff.1 g1)
  have hbuild : ∃ rows, HitBuilder.build b f1 f2 s1s s2s event ts = .ok rows := by
    cases out with
    | nil => exact absurd rfl hne
    | cons a l => exact ⟨_, by rw [HitBuilder.build, ht]; simp only [ho]; rfl⟩
  obtain ⟨rows, hb⟩ := hbuild
  have hv : ∀ x ∈ HitBuilder.selectedS2s f2 s2s, ValidPeak x.1 := fun x hx => (hg x hx).1.valid
  obtain ⟨tRef, htr, bl, hbl, hrows⟩ := HitBuilder.build_spec hsz hv hn hb
  refine ⟨rows, hb, ⟨tRef, htr, fun r hrr hq => ?_⟩, (HitBuilder.build_energy hsz hthr hv hn hb).2⟩
  rw [hrows] at hrr
  obtain ⟨l, hl, hrl⟩ := List.mem_flatten.1 hrr
  obtain ⟨x, hx, p, xys, pos, charges, bs, e1, e2, e3, _, e5, e6, e7, e8, e9, e10⟩ := KrEvent.forall₂_mem_right hbl hl
  obtain ⟨_, hu⟩ := hg x hx
  have hu := hu p e1
  rw [h2] at e5
  obtain ⟨vss, hvss, rfl⟩ := slice_charges_ok.1 e5
  obtain ⟨sl1, sl2⟩ := slices_value hu.valid hu.sipms hvss
  obtain ⟨hwf, hcols, hids⟩ := peak_facts hu.valid hu.sipms
  have hrl' := hrl
  rw [e6] at hrl'
  obtain ⟨blk, hblk, hrb⟩ := List.mem_flatten.1 hrl'
  obtain ⟨j, hj⟩ := List.getElem?_of_mem hblk
  have hjl : j < p.times.length := by rw [← e7]; exact (List.getElem?_eq_some_iff.1 hj).1
  have ht' : p.times[j]? = some p.times[j] := List.getElem?_eq_getElem hjl
  have hw' : p.widths[j]? = some (p.widths[j]'(by rw [hu.valid.widths]; exact hjl)) := List.getElem?_eq_getElem _
  have hel : p.pmts.sumOverSensors.length = p.times.length := by simp [Responses.sumOverSensors, Mat.sumSensors, hu.valid.pmtCols]
  have he' : p.pmts.sumOverSensors[j]? = some (p.pmts.sumOverSensors[j]'(by omega)) := List.getElem?_eq_getElem _
  have hvj : vss[j]? = some (vss[j]'(by omega)) := List.getElem?_eq_getElem _
  obtain ⟨blk', k1, k2, k3⟩ := e10 j _ _ _ ht' he' (by rw [List.getElem?_map, hvj]; rfl)
  rw [hj] at k1; cases k1
  obtain ⟨dark, d1, d2, d3⟩ := sl2 j _ _ hw' hvj
  have hex : ∃ q ∈ (vss[j]'(by omega)).map Val.number, b.qThr ≤ q := by
    by_contra hno
    have := k2.none (fun q hq => not_le.1 fun h => hno ⟨q, hq, h⟩)
    have hm : (r.x, r.y, r.q, r.e) ∈ blk.map fun r => (r.x, r.y, r.q, r.e) := List.mem_map_of_mem hrb
    rw [this] at hm
    simp only [List.mem_singleton, Prod.mk.injEq] at hm
    exact hq hm.2.2.1
  have hmem : ((r.x, r.y), r.q) ∈ blk.map fun r => ((r.x, r.y), r.q) := List.mem_map_of_mem hrb
  rw [k2.some hex, List.mem_filter] at hmem
  obtain ⟨hz, hle⟩ := hmem
  obtain ⟨k, hk⟩ := List.getElem?_of_mem hz
  obtain ⟨hk1, hk2⟩ := List.getElem?_zip_eq_some.1 hk
  rw [List.getElem?_map] at hk2
  obtain ⟨v, hvk, hvn⟩ := Option.map_eq_some_iff.1 hk2
  have hkl : k < p.sipms.ids.length := by rw [← e2]; exact (List.getElem?_eq_some_iff.1 hk1).1
  have hi : p.sipms.ids[k]? = some p.sipms.ids[k] := List.getElem?_eq_getElem hkl
  have hrow : p.sipms.wfs.rows[k]? = some (p.sipms.wfs.rows[k]'(by omega)) := List.getElem?_eq_getElem _
  have hrj : (p.sipms.wfs.rows[k]'(by omega))[j]? = some ((p.sipms.wfs.rows[k]'(by omega))[j]'(by rw [hwf _ (List.getElem_mem _), hcols]; exact hjl)) := List.getElem?_eq_getElem _
  obtain ⟨d, hd, hratio⟩ := d3 k _ _ _ v hi hrow hrj hvk
  obtain ⟨⟨_, _, _⟩, vss', hvss', hall⟩ := usable_values hs hu
  rw [hvss] at hvss'; cases hvss'
  obtain ⟨y, hy, _⟩ := (hall _ (List.mem_of_getElem? hvj)).2 v (List.mem_of_getElem? hvk)
  subst hy
  simp only [Val.number] at hvn
  subst hvn
  refine ⟨x, hx, p, e1, (e9 r hrl).2.2.1, j, k, _, _, _, _, _, dark, d, ht', hw', hi, hrow, hrj, d1, hd, hratio, by simpa using hle, ?_, k3 r hrb⟩
  rw [← e3 k _ hi, hk1]

/-- **C128** The hits that sophronia builds with signal to noise as charge (the builder is the one of `sipms_as_hits`): everything said in `sn_hits`, and every hit has the position that the reconstruction
finds for its peak from the signal to noise of its SiPMs in the whole peak. -/
theorem sn_city_hits {sqrt : ℚ → ℚ} (hs : PositiveRoot sqrt) {s : Sampler} {driftV qThr : ℚ} {rebin : Peaks.RebinMethod} {xys : List (ℚ × ℚ)}
    {reco : List (ℚ × ℚ) → List ℚ → Except PyErr (List (ℚ × ℚ))} (hr : HitBuilder.RecoOk (builder sqrt s driftV rebin qThr xys reco)) (hthr : 0 < qThr)
    {f1 f2 : List Bool} {s1s s2s : List Peak} (hn : s2s.length ≤ 65536) {t : ℚ} (ht : HitBuilder.s1Time f1 f2 s1s s2s = .ok t) (hsel : HitBuilder.selectedS2s f2 s2s ≠ [])
    (hg : ∀ x ∈ HitBuilder.selectedS2s f2 s2s, HitBuilder.GoodS2 (builder sqrt s driftV rebin qThr xys reco) x.1 ∧ ∀ q, Peaks.rebinPeak x.1 rebin = .ok q → Usable s q) (event : Int) (ts : ℚ) :
    ∃ rows, HitBuilder.build (builder sqrt s driftV rebin qThr xys reco) f1 f2 s1s s2s event ts = .ok rows ∧
      (∃ tRef, HitBuilder.RefTime f1 f2 s1s s2s tRef ∧ ∀ r ∈ rows, r.q ≠ -999999 → SnHit sqrt s (builder sqrt s driftV rebin qThr xys reco) tRef (HitBuilder.selectedS2s f2 s2s) r) ∧
      ∀ r ∈ rows, ∃ x ∈ HitBuilder.selectedS2s f2 s2s, ∃ p, Peaks.rebinPeak x.1 rebin = .ok p ∧ r.npeak = x.2 ∧ SnPosition sqrt s xys reco p (r.xpeak, r.ypeak) := by
  obtain ⟨rows, hb, ⟨tRef, h1, h2⟩, _⟩ := sn_hits hs (b := builder sqrt s driftV rebin qThr xys reco) (s := s) rfl rfl hr hthr hn ht hsel hg event ts
  refine ⟨rows, hb, ⟨tRef, h1, h2⟩, fun r hrr => ?_⟩
  have hv : ∀ x ∈ HitBuilder.selectedS2s f2 s2s, ValidPeak x.1 := fun x hx => (hg x hx).1.valid
  obtain ⟨_, _, bl, hbl, hrows⟩ := HitBuilder.build_spec (sized_sn rfl) hv hn hb
  rw [hrows] at hrr
  obtain ⟨l, hl, hrl⟩ := List.mem_flatten.1 hrr
  obtain ⟨x, hx, p, cs, pos, charges, bs, e1, e2, e3, e4, _, _, _, _, e9, _⟩ := KrEvent.forall₂_mem_right hbl hl
  have hu := (hg x hx).2 p e1
  obtain ⟨⟨vs, hvs, hnum⟩, _⟩ := usable_values hs hu
  obtain ⟨dark, hd, hvl, hval⟩ := point_value hu.valid hu.sipms hvs
  have hpc : pointCharges sqrt s p = .ok (vs.map Val.number) := by unfold pointCharges; rw [hvs]
  obtain ⟨_, _, hnp, hxp, hyp⟩ := e9 r hrl
  refine ⟨x, hx, p, e1, hnp, dark, vs.map Val.number, cs, hd, by rw [List.length_map, hvl], e2, fun k i row q hi hrow hq => ?_, e3, ?_⟩
  · rw [List.getElem?_map] at hq
    obtain ⟨v, hv, rfl⟩ := Option.map_eq_some_iff.1 hq
    obtain ⟨y, rfl, _⟩ := hnum v (List.mem_of_getElem? hv)
    exact hval k i row _ hi hrow hv
  · rw [hxp, hyp]
    cases e4 with
    | found hq hc =>
      rw [show (builder sqrt s driftV rebin qThr xys reco).pointCharges p = pointCharges sqrt s p from rfl, hpc] at hq
      cases hq
      exact Or.inl ⟨_, hc⟩
    | failed hq hc hf =>
      rw [show (builder sqrt s driftV rebin qThr xys reco).pointCharges p = pointCharges sqrt s p from rfl, hpc] at hq
      cases hq
      exact Or.inr ⟨_, hc, hf, rfl⟩

/-- **C128** A masked SiPM has no noise: its signal to noise is its charge divided by the root of its charge, and not a number if it has no charge. -/
theorem masked_value (s : Sampler) (n : Int) (bins : List ℚ) (rows : List (List ℚ)) (hpad : Sampling.padPdfs s.xbins s.probs = .ok (bins, rows)) (hl : s.active.length = s.probs.length)
    (hrow : ∀ r ∈ s.probs, r.length = s.xbins.length ∧ Sampling.NonNeg r) (ha : ∀ a ∈ s.active, 0 ≤ a) (hn : 1 ≤ n) {i : Nat} (hi : s.active[i]? = some 0) (sqrt : ℚ → ℚ) :
    signalToNoise sqrt s .threshold [i] [0] n = .ok [.nan] ∧ ∀ q, 0 < q → signalToNoise sqrt s .threshold [i] [q] n = .ok [.num (q / sqrt q)] := by
  obtain ⟨dark, hd, hlen, hv⟩ := Sampling.dark_threshold s (n - 1).toNat bins rows hpad hl hrow ha
  obtain ⟨pl, pinv⟩ := Sampling.padded_inv _ _ _ _ hpad hrow
  obtain ⟨ml, _⟩ := Sampling.multiRows_inv rows bins.length pinv (n - 1).toNat
  have hil : i < s.probs.length := by rw [← hl]; exact (List.getElem?_eq_some_iff.1 hi).1
  have hdi : dark[i]? = some (dark[i]'(by omega)) := List.getElem?_eq_getElem _
  have hmi : (Sampling.multiRows rows (n - 1).toNat)[i]? = some ((Sampling.multiRows rows (n - 1).toNat)[i]'(by omega)) := List.getElem?_eq_getElem _
  have h0 := (hv i 0 _ _ hi hmi hdi).1 rfl
  rw [h0] at hdi
  have ht : npTake dark [i] = .ok [some 0] := by simp [npTake, hdi, pure, Except.pure, bind, Except.bind]
  have key : ∀ q, signalToNoise sqrt s .threshold [i] [q] n = .ok [ratio sqrt q (some 0)] := by
    intro q
    unfold signalToNoise
    rw [if_neg (not_lt.2 hn), hd]
    simp only [ht, List.zipWith_cons_cons, List.zipWith_nil_right]
  refine ⟨by rw [key]; simp [ratio], fun q hq => ?_⟩
  rw [key, (ratio_spec sqrt q (some 0) (.num (q / sqrt q))).2 (Or.inr ⟨0, rfl, by linarith, by rw [add_zero]⟩)]

/-! ### Cases -/

/-- A root that is exact for squares of whole numbers, and positive. -/
def caseRoot (x : ℚ) : ℚ := if x ≤ 0 then 0 else (max 1 (Nat.sqrt ⌊x⌋.toNat) : Nat)

theorem case_root : PositiveRoot caseRoot := by
  intro x hx
  unfold caseRoot
  rw [if_neg (not_le.2 hx)]
  exact_mod_cast lt_of_lt_of_le Nat.one_pos (le_max_left _ _)

/-- Four sensors: two with noise, one masked and one without data. -/
def caseSampler : Sampler := ⟨[[1 / 4, 1 / 2, 1 / 4], [0, 0, 1], [0, 0, 0], [0, 0, 0]], [-50, 0, 50], [0, 0, 0, 0], [1, 1, 0, 1], [1, 1, 1, 1]⟩

/-- An S2 of two bins of 1 and 1.2 µs with the sensors 0 and 1. -/
def casePeak : Peak := ⟨[500, 1600], [1000, 1200], ⟨[0], ⟨[[7, 2]], 2⟩⟩, ⟨[0, 1], ⟨[[50, 525], [175, 0]], 2⟩⟩⟩

/-- The reconstruction of the cases: the position of the first SiPM. -/
def caseReco (xys : List (ℚ × ℚ)) (_ : List ℚ) : Except PyErr (List (ℚ × ℚ)) := match xys with
  | [] => .error (.other "SipmEmptyList")
  | c :: _ => .ok [c]

def caseBuilder : HitBuilder.Builder := builder caseRoot caseSampler 1 (.stride 1) 3 [(0, 0), (10, 0), (20, 0), (30, 0)] caseReco

theorem case_dark : darkExpectation caseSampler 0 .threshold = .ok [some 50, some 50, some 0, none] ∧ darkExpectation caseSampler 1 .threshold = .ok [some 100, some 100, some 0, none] ∧
    darkExpectation caseSampler 2 .threshold = .ok [some 100, none, some 0, none] := ⟨by decide +kernel, by decide +kernel, by decide +kernel⟩

theorem case_usable : Usable caseSampler casePeak where
  valid := ⟨by decide, by decide, by unfold Mat.WF; decide +kernel, by decide, by decide, Or.inr ⟨by unfold Mat.WF; decide +kernel, by decide, by decide, by decide⟩⟩
  sipms := by decide
  bins := by decide +kernel
  whole := by decide +kernel
  charges := by decide +kernel
  levels := by
    have hw : casePeak.width = 2200 := by decide +kernel
    intro w h
    have h' : w = 1000 ∨ w = 1200 ∨ w = 2200 := by
      rcases h with h | h
      · simp only [casePeak, List.mem_cons, List.not_mem_nil, or_false] at h
        rcases h with h | h
        · exact Or.inl h
        · exact Or.inr (Or.inl h)
      · exact Or.inr (Or.inr (h.trans hw))
    rcases h' with rfl | rfl | rfl
    · exact ⟨_, ⟨by decide +kernel, by rw [show (sampleWidth 1000 - 1).toNat = 0 by decide +kernel]; exact case_dark.1⟩, by simp [casePeak]⟩
    · exact ⟨_, ⟨by decide +kernel, by rw [show (sampleWidth 1200 - 1).toNat = 1 by decide +kernel]; exact case_dark.2.1⟩, by simp [casePeak]⟩
    · exact ⟨_, ⟨by decide +kernel, by rw [show (sampleWidth 2200 - 1).toNat = 2 by decide +kernel]; exact case_dark.2.2⟩, by simp [casePeak]⟩

/-- What the theorems say of the cases: the values as a whole and by slices, and the hits. -/
example : (snPoint caseRoot caseSampler casePeak).toOption = some [.num 23, .num 0] ∧ (snSlices caseRoot caseSampler casePeak).toOption = some [[.num 5, .num (35 / 3)], [.num 21, .num 0]] :=
  ⟨by decide +kernel, by decide +kernel⟩

example : (HitBuilder.build caseBuilder [] [true] [] [casePeak] 4 1000).toOption.map (fun rows => rows.map fun r => (r.x, r.z, r.q)) = some [(0, 0, 5), (10, 0, 35 / 3), (0, 1100, 21)] := by decide +kernel

/-- The hypotheses of `sn_hits` and `sn_city_hits` hold for it. -/
example : caseBuilder.pointCharges = pointCharges caseRoot caseSampler ∧ caseBuilder.sliceCharges = sliceCharges caseRoot caseSampler ∧ HitBuilder.RecoOk caseBuilder ∧ 0 < caseBuilder.qThr ∧
    (∃ t, HitBuilder.s1Time [] [true] [] [casePeak] = .ok t) ∧ HitBuilder.selectedS2s [true] [casePeak] = [(casePeak, 0)] ∧ HitBuilder.GoodS2 caseBuilder casePeak ∧
    ∀ q, Peaks.rebinPeak casePeak caseBuilder.rebin = .ok q → Usable caseSampler q := by
  refine ⟨rfl, rfl, fun xys qs => ?_, by decide +kernel, ⟨500, rfl⟩, rfl, ⟨case_usable.valid, by decide, by decide +kernel⟩, fun q h => ?_⟩
  · cases xys with
    | nil => exact Or.inr ⟨_, rfl, by simp [KrEvent.RecoFailure]⟩
    | cons c cs => exact Or.inl ⟨c, [], rfl⟩
  · have : q = casePeak := by
      simp only [caseBuilder, builder, Peaks.rebinPeak, le_refl, if_true, Except.ok.injEq] at h
      exact h.symm
    rw [this]; exact case_usable

/-- Exact roots, with more charge and less noise. -/
example : ExactAt caseRoot (3 + 13) ∧ ExactAt caseRoot (7 + 2) ∧ IsRatio caseRoot 3 (some 13) (.num (3 / 4)) ∧ IsRatio caseRoot 7 (some 2) (.num (7 / 3)) :=
  ⟨⟨by decide +kernel, by decide +kernel⟩, ⟨by decide +kernel, by decide +kernel⟩, (ratio_spec _ _ _ _).1 (by decide +kernel), (ratio_spec _ _ _ _).1 (by decide +kernel)⟩

/-- Widths: 1.0004 µs is one sample, 1.0006 µs two; half a ns is refused. -/
example : sampleWidth (10004 / 10) = 1 ∧ sampleWidth (10006 / 10) = 2 ∧ sampleWidth (1 / 2) = 0 ∧ sampleWidth (6 / 10) = 1 := ⟨by decide +kernel, by decide +kernel, by decide +kernel, by decide +kernel⟩

/-- A width refused, and a sensor that is not in the database. -/
example : (signalToNoise caseRoot caseSampler .threshold [0] [3] 0).toOption = none ∧ (signalToNoise caseRoot caseSampler .threshold [4] [3] 1).toOption = none ∧
    (signalToNoise caseRoot caseSampler .threshold [0, 2] [-60, 4] 1).toOption = some [.nan, .num 2] ∧ (signalToNoise caseRoot caseSampler .threshold [0] [-50] 1).toOption = some [.inf false] :=
  ⟨by decide +kernel, by decide +kernel, by decide +kernel, by decide +kernel⟩

/-- The masked sensor. -/
example : ∃ bins rows, Sampling.padPdfs caseSampler.xbins caseSampler.probs = .ok (bins, rows) ∧ caseSampler.active[2]? = some 0 ∧ caseSampler.active.length = caseSampler.probs.length ∧
    (∀ r ∈ caseSampler.probs, r.length = caseSampler.xbins.length ∧ Sampling.NonNeg r) ∧ ∀ a ∈ caseSampler.active, 0 ≤ a :=
  ⟨[-100, -50, 0, 50, 100], [[0, 1 / 4, 1 / 2, 1 / 4, 0], [0, 0, 0, 1, 0], [0, 0, 0, 0, 0], [0, 0, 0, 0, 0]], by decide +kernel, by decide +kernel, by decide, by unfold Sampling.NonNeg; decide +kernel, by decide +kernel⟩

/-- **C128** (finding) The sum of the samples of a SiPM can leave the range of the bins: its dark level is then infinite, and whatever its charge its signal to noise is zero. -/
theorem noise_out_of_range : (signalToNoise caseRoot caseSampler .threshold [1] [1000000] 2).toOption = some [.num (1000000 / 1000)] ∧
    (signalToNoise caseRoot caseSampler .threshold [1] [1000000] 3).toOption = some [.num 0] := ⟨by decide +kernel, by decide +kernel⟩

/-- A peak of one bin. -/
example : (snSlices caseRoot caseSampler ⟨[500], [1000], ⟨[0], ⟨[[7]], 1⟩⟩, ⟨[0, 1], ⟨[[50], [175]], 1⟩⟩⟩).toOption = some [[.num 5, .num (35 / 3)]] := by decide +kernel

end Verif.SignalNoise
