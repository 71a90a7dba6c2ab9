import Verif.Model.LightTables
import Verif.Props.S2Light
import Verif.Props.Core
import Mathlib.Tactic.Qify
/-!
# Light tables (C60)
-/
namespace Verif.Detsim

/-! ### SiPMs -/

/-- A regular table of distances: `n` rows, at distances `d0, d0 + w, …`, the first in the first bin. -/
structure RegularSipm (t : LTSipm) (d0 w : ℚ) (n : Nat) : Prop where
  dist : t.dist = (List.range n).map fun i : Nat => d0 + i * w
  rows : t.rows.length = n
  two : 2 ≤ n
  pos : 0 < w
  first : 0 ≤ d0
  bin : d0 < w

theorem foldl_max_eq {xs : List ℚ} {m : ℚ} (hm : m ∈ xs) (h : ∀ x ∈ xs, x ≤ m) : maxOf xs = .ok m := by
  cases h0 : maxOf xs with
  | error e =>
    cases xs with
    | nil => cases hm
    | cons x xs => cases h0
  | ok v =>
    obtain ⟨h1, h2⟩ := maxOf_spec h0
    rw [le_antisymm (h v h1) (h2 m hm)]

theorem sqrt_floor {d2 w : ℚ} (hw : 0 < w) (hd : 0 ≤ d2) :
    ((Nat.sqrt ⌊d2 / (w * w)⌋.toNat : ℚ) * w) * ((Nat.sqrt ⌊d2 / (w * w)⌋.toNat : ℚ) * w) ≤ d2 ∧
      d2 < ((Nat.sqrt ⌊d2 / (w * w)⌋.toNat + 1 : ℚ) * w) * ((Nat.sqrt ⌊d2 / (w * w)⌋.toNat + 1 : ℚ) * w) := by
  have hww : 0 < w * w := by positivity
  have h0 : 0 ≤ ⌊d2 / (w * w)⌋ := Int.floor_nonneg.2 (div_nonneg hd hww.le)
  generalize hb : Nat.sqrt ⌊d2 / (w * w)⌋.toNat = b
  have h1 : b * b ≤ ⌊d2 / (w * w)⌋.toNat := by rw [← hb]; exact Nat.sqrt_le _
  have h2 : ⌊d2 / (w * w)⌋.toNat < (b + 1) * (b + 1) := by rw [← hb]; exact Nat.lt_succ_sqrt _
  have h3 : ((b * b : Nat) : Int) ≤ ⌊d2 / (w * w)⌋ := by omega
  have h4 : ⌊d2 / (w * w)⌋ < (((b + 1) * (b + 1) : Nat) : Int) := by omega
  rw [Int.le_floor, le_div_iff₀ hww] at h3
  rw [Int.floor_lt, div_lt_iff₀ hww] at h4
  push_cast at h3 h4
  constructor <;> nlinarith

theorem dist2_nonneg (x y : ℚ) (s : ℚ × ℚ) : 0 ≤ dist2 x y s := by
  unfold dist2
  have := mul_self_nonneg (x - s.1)
  have := mul_self_nonneg (y - s.2)
  linarith

theorem parts_count {pitch gap : ℚ} (hp : 0 < pitch) {parts : Nat} (h : ∀ i : Nat, i < parts ↔ pitch / 2 + i * pitch < gap) : (elBins pitch gap).length = parts := by
  have key : ∀ i : Nat, i < (elBins pitch gap).length ↔ pitch / 2 + i * pitch < gap := by
    intro i
    rw [elBins, Buffers.arange, List.length_map, List.length_range, Int.lt_toNat, Int.lt_ceil, lt_div_iff₀ hp]
    push_cast
    constructor <;> intro h <;> linarith
  apply le_antisymm
  · by_contra hc
    have := (h parts).2 ((key parts).1 (by omega))
    omega
  · by_contra hc
    have := (key (elBins pitch gap).length).2 ((h _).1 (by omega))
    omega

/-- **C60** (SiPMs).  With a regular table the look-up never fails.  There is no light for sensors that do not exist, for positions outside the active
radius and for sensors farther than the last row; otherwise the values are those of the row whose bin of distances contains the
distance to the sensor, shared between the partitions of the gap (those whose centre, half a pitch after multiples of the pitch, is inside it) and times the ratio. -/
theorem sipm_lookup {t : LTSipm} {d0 w : ℚ} {n : Nat} (ht : RegularSipm t d0 w n) (hpitch : 0 < t.pitch) {parts : Nat} (hparts : ∀ i : Nat, i < parts ↔ t.pitch / 2 + i * t.pitch < t.elGap) (x y : ℚ) (s : Nat) :
    ∃ r, t.getValues x y s = .ok r ∧
      (t.sensors[s]? = none → r = none) ∧
      ∀ p, t.sensors[s]? = some p →
        ((d0 + ((n : ℚ) - 1) * w) * (d0 + ((n : ℚ) - 1) * w) < dist2 x y p ∨ t.activeR * t.activeR ≤ x * x + y * y → r = none) ∧
        (dist2 x y p ≤ (d0 + ((n : ℚ) - 1) * w) * (d0 + ((n : ℚ) - 1) * w) → x * x + y * y < t.activeR * t.activeR →
          ∃ (b : Nat) (row : List ℚ), t.rows[b]? = some row ∧ (b * w) * (b * w) ≤ dist2 x y p ∧ dist2 x y p < ((b + 1) * w) * ((b + 1) * w) ∧
            r = some (row.map fun v => v / parts * t.ratio)) := by
  rw [← parts_count hpitch hparts]
  have hw := ht.pos
  have hd0 := ht.first
  have hn2 : (2 : ℚ) ≤ n := by exact_mod_cast ht.two
  have hb : t.psfBin = .ok w := by
    unfold LTSipm.psfBin
    have h2 := ht.two
    rw [ht.dist, List.getElem?_map, List.getElem?_map, List.getElem?_range (by omega), List.getElem?_range (by omega)]
    simp
  have hm : t.maxPsf = .ok (d0 + ((n : ℚ) - 1) * w) := by
    unfold LTSipm.maxPsf
    apply foldl_max_eq
    · rw [ht.dist]
      refine List.mem_map.2 ⟨n - 1, List.mem_range.2 (by have := ht.two; omega), ?_⟩
      rw [Nat.cast_sub (by have := ht.two; omega)]
      push_cast; ring
    · intro v hv
      rw [ht.dist] at hv
      obtain ⟨i, hi, rfl⟩ := List.mem_map.1 hv
      have : (i : ℚ) + 1 ≤ n := by exact_mod_cast List.mem_range.1 hi
      nlinarith
  have hget : t.getValues x y s = match t.sensors[s]? with
      | none => .ok none
      | some p =>
        if (d0 + ((n : ℚ) - 1) * w) * (d0 + ((n : ℚ) - 1) * w) < dist2 x y p then .ok none
        else if t.activeR * t.activeR ≤ x * x + y * y then .ok none
        else t.row w (dist2 x y p) := by
    unfold LTSipm.getValues; rw [hb, hm]; rfl
  rw [hget]
  cases hs : t.sensors[s]? with
  | none => exact ⟨none, rfl, fun _ => rfl, fun p hp => by cases hp⟩
  | some p =>
    by_cases h1 : (d0 + ((n : ℚ) - 1) * w) * (d0 + ((n : ℚ) - 1) * w) < dist2 x y p
    · refine ⟨none, by simp only; rw [if_pos h1], (fun h => by cases h), ?_⟩
      rintro q hq
      obtain rfl := Option.some.inj hq
      exact ⟨fun _ => rfl, fun h => absurd h1 (not_lt.2 h)⟩
    · by_cases h2 : t.activeR * t.activeR ≤ x * x + y * y
      · refine ⟨none, by simp only; rw [if_neg h1, if_pos h2], (fun h => by cases h), ?_⟩
        rintro q hq
        obtain rfl := Option.some.inj hq
        exact ⟨fun _ => rfl, fun _ h => absurd h2 (not_le.2 h)⟩
      · simp only
        rw [if_neg h1, if_neg h2]
        obtain ⟨hlo, hhi⟩ := sqrt_floor hw (dist2_nonneg x y p)
        have hbn : Nat.sqrt ⌊dist2 x y p / (w * w)⌋.toNat < n := by
          generalize Nat.sqrt ⌊dist2 x y p / (w * w)⌋.toNat = b at hlo
          have hmax := not_lt.1 h1
          have hle : (b : ℚ) * w ≤ d0 + ((n : ℚ) - 1) * w := by
            apply le_of_not_gt
            intro hgt
            have hnn : 0 ≤ d0 + ((n : ℚ) - 1) * w := by nlinarith
            have := mul_self_lt_mul_self hnn hgt
            linarith
          have hlt := ht.bin
          have : (b : ℚ) * w < n * w := by linarith
          have := lt_of_mul_lt_mul_right this hw.le
          exact_mod_cast this
        unfold LTSipm.row
        generalize Nat.sqrt ⌊dist2 x y p / (w * w)⌋.toNat = b at hlo hhi hbn ⊢
        have hbr : b < t.rows.length := by rw [ht.rows]; exact hbn
        have hsc : t.scaled[b]? = some (t.rows[b].map fun v => v / (elBins t.pitch t.elGap).length * t.ratio) := by
          unfold LTSipm.scaled
          rw [List.getElem?_map, List.getElem?_eq_getElem hbr]; rfl
        rw [hsc]
        refine ⟨_, rfl, (fun h => by cases h), ?_⟩
        rintro q hq
        obtain rfl := Option.some.inj hq
        refine ⟨?_, fun _ _ => ⟨b, t.rows[b], List.getElem?_eq_getElem hbr, hlo, hhi, rfl⟩⟩
        rintro (h | h)
        · exact absurd h h1
        · exact absurd h h2

/-- Three rows at 0, 2, 4 mm; a sensor at 3 mm, one too far, a position outside. -/
def sipmDemo : LTSipm := ⟨[0, 2, 4], [[8, 8], [4, 4], [2, 2]], 1, 2, 1, 100, [(3, 0), (50, 0)]⟩

example : RegularSipm sipmDemo 0 2 3 ∧ sipmDemo.getValues 0 0 0 = .ok (some [2, 2]) ∧ sipmDemo.getValues 0 0 1 = .ok none ∧
    sipmDemo.getValues 0 0 2 = .ok none ∧ sipmDemo.getValues 3 100 0 = .ok none ∧ sipmDemo.getValues 7 0 0 = .ok (some [1, 1]) := by
  refine ⟨⟨by decide +kernel, rfl, by decide, by decide +kernel, by decide +kernel, by decide +kernel⟩, ?_⟩
  decide +kernel

example : 0 < sipmDemo.pitch ∧ ∀ i : Nat, i < 2 ↔ sipmDemo.pitch / 2 + i * sipmDemo.pitch < sipmDemo.elGap := by
  refine ⟨by decide +kernel, fun i => ?_⟩
  simp only [sipmDemo]
  constructor
  · intro h
    have : (i : ℚ) ≤ 1 := by exact_mod_cast (by omega : i ≤ 1)
    linarith
  · intro h
    have : (i : ℚ) < 2 := by linarith
    exact_mod_cast this

/-- **C60** (SiPMs, finding).  A table whose first distance is not in the first bin uses the wrong rows and fails for the farthest sensors it describes. -/
theorem sipm_offset_table : ∃ t : LTSipm, t.dist = [2, 4] ∧ t.rows.length = 2 ∧ t.getValues 0 0 0 = .error .indexError ∧
    t.sensors[0]? = some (4, 0) ∧ dist2 0 0 (4, 0) = 4 * 4 :=
  ⟨⟨[2, 4], [[8], [4]], 1, 1, 1, 100, [(4, 0)]⟩, rfl, rfl, by decide +kernel, rfl, by decide +kernel⟩

/-! ### PMTs -/

theorem cround_close (q : ℚ) : |q - cround q| ≤ 1 / 2 := by
  unfold cround
  rw [abs_le]
  split
  · have h1 := Int.floor_le (q + 1 / 2)
    have h2 := Int.lt_floor_add_one (q + 1 / 2)
    constructor <;> linarith
  · have h1 := Int.le_ceil (q - 1 / 2)
    have h2 := Int.ceil_lt_add_one (q - 1 / 2)
    constructor <;> linarith

theorem cround_range {q : ℚ} {m : Nat} (h0 : 0 ≤ q) (h1 : q ≤ m) : 0 ≤ cround q ∧ cround q ≤ m := by
  unfold cround
  rw [if_pos h0]
  refine ⟨Int.floor_nonneg.2 (by linarith), ?_⟩
  have : ⌊q + 1 / 2⌋ < (m : Int) + 1 := by
    rw [Int.floor_lt]; push_cast; linarith
  omega

/-- The grid covers the active region: when the table has points on both sides of the axis, a whole number of bins apart, every coordinate inside
the active radius is in the bin of a centre. -/
theorem grid_covers {lo hi R bin : ℚ} (hb : 0 < bin) (hlo : lo ≤ 0) (hhi : 0 ≤ hi) (m : Nat) (hm : hi - lo = m * bin) {x : ℚ} (hx : |x| < R) :
    0 ≤ cround ((x - lowBound lo R bin) / bin) ∧ ∃ c, (gridCentres lo hi R bin)[(cround ((x - lowBound lo R bin) / bin)).toNat]? = some c ∧
      |x - c| ≤ bin / 2 := by
  obtain ⟨hx1, hx2⟩ := abs_lt.1 hx
  have hlowB : lowBound lo R bin ≤ -R := by
    unfold lowBound
    have h := Int.le_ceil ((R - |lo|) / bin)
    rw [div_le_iff₀ hb, abs_of_nonpos hlo] at h
    rw [abs_of_nonpos hlo]
    linarith
  have hhighB : R ≤ highBound hi R bin := by
    unfold highBound
    have h := Int.le_ceil ((R - |hi|) / bin)
    rw [div_le_iff₀ hb, abs_of_nonneg hhi] at h
    rw [abs_of_nonneg hhi]
    linarith
  have hdiff : highBound hi R bin - lowBound lo R bin = ((m : Int) + ⌈(R - |hi|) / bin⌉ + ⌈(R - |lo|) / bin⌉ : Int) * bin := by
    unfold highBound lowBound
    push_cast
    linarith
  generalize hM : ((m : Int) + ⌈(R - |hi|) / bin⌉ + ⌈(R - |lo|) / bin⌉ : Int) = M at hdiff
  have hR : 0 < R := by linarith [abs_nonneg x]
  have hMpos : 0 ≤ M := by
    have : (0 : ℚ) < M * bin := by rw [← hdiff]; linarith
    have := pos_of_mul_pos_left this hb.le
    exact_mod_cast this.le
  obtain ⟨N, rfl⟩ := Int.eq_ofNat_of_zero_le hMpos
  have hdiff' : highBound hi R bin - lowBound lo R bin = (N : ℚ) * bin := by rw [hdiff]; simp
  generalize hL : lowBound lo R bin = L at hdiff' hlowB ⊢
  have hq0 : 0 ≤ (x - L) / bin := div_nonneg (by linarith) hb.le
  have hq1 : (x - L) / bin ≤ N := by rw [div_le_iff₀ hb]; linarith
  obtain ⟨hc0, hc1⟩ := cround_range hq0 hq1
  refine ⟨hc0, L + ((cround ((x - L) / bin)).toNat : ℚ) * bin, ?_, ?_⟩
  · unfold gridCentres Buffers.arange
    rw [hL]
    have hcount : ⌈(highBound hi R bin + bin / 2 - L) / bin⌉ = (N : Int) + 1 := by
      rw [show (highBound hi R bin + bin / 2 - L) / bin = N + 1 / 2 by
        rw [show highBound hi R bin + bin / 2 - L = N * bin + bin / 2 by linarith]
        field_simp]
      rw [Int.ceil_eq_iff]; push_cast; constructor <;> linarith
    rw [hcount, List.getElem?_map, List.getElem?_range (by omega)]
    rfl
  · have h1 := cround_close ((x - L) / bin)
    have h2 : (((cround ((x - L) / bin)).toNat : Nat) : ℚ) = (cround ((x - L) / bin) : ℚ) := by
      have : (((cround ((x - L) / bin)).toNat : Nat) : Int) = cround ((x - L) / bin) := Int.toNat_of_nonneg hc0
      exact_mod_cast this
    rw [h2]
    have h3 : x - (L + (cround ((x - L) / bin) : ℚ) * bin) = ((x - L) / bin - cround ((x - L) / bin)) * bin := by field_simp; ring
    rw [h3, abs_mul, abs_of_pos hb]
    nlinarith

theorem abs_lt_of_sq {x y R : ℚ} (hR : 0 ≤ R) (h : x * x + y * y < R * R) : |x| < R ∧ |y| < R := by
  constructor
  · rw [abs_lt]
    constructor <;> by_contra hc <;> nlinarith [mul_self_nonneg y]
  · rw [abs_lt]
    constructor <;> by_contra hc <;> nlinarith [mul_self_nonneg x]

/-- **C60** (PMTs).  For a table with the same points in `x` and in `y` (both sides of the axis, whole numbers of bins): there is no light outside the active
radius or for PMTs that do not exist; elsewhere the look-up never fails and gives the value, times the ratio, of the point of the table
nearest to the centre of the bin of the position. -/
theorem pmt_lookup (t : LTPmt) (nearest : ℚ × ℚ → Nat) {lo hi bin : ℚ} (hx : t.binX = bin) (hy : t.binY = bin) (hb : 0 < bin) (hR : 0 ≤ t.activeR)
    (hlo : lo ≤ 0) (hhi : 0 ≤ hi) (m : Nat) (hm : hi - lo = m * bin) (x y : ℚ) (s : Nat) :
    (t.activeR * t.activeR ≤ x * x + y * y ∨ t.npmt ≤ s → t.getValues nearest lo hi lo hi x y s = .ok none) ∧
      (x * x + y * y < t.activeR * t.activeR → s < t.npmt → ∃ cx cy : ℚ, |x - cx| ≤ bin / 2 ∧ |y - cy| ≤ bin / 2 ∧
        t.getValues nearest lo hi lo hi x y s = .ok (some (((t.values.getD (nearest (cx, cy)) []).map (· * t.ratio)).getD s 0))) := by
  unfold LTPmt.getValues
  constructor
  · rintro (h | h)
    · rw [if_pos h]
    · by_cases h' : t.activeR * t.activeR ≤ x * x + y * y
      · rw [if_pos h']
      · rw [if_neg h', if_pos h]
  · intro h1 h2
    obtain ⟨hax, hay⟩ := abs_lt_of_sq hR h1
    rw [if_neg (not_le.2 h1), if_neg (not_le.2 h2), hx, hy]
    obtain ⟨hcx0, cx, hcx, hcx'⟩ := grid_covers hb hlo hhi m hm hax
    obtain ⟨hcy0, cy, hcy, hcy'⟩ := grid_covers hb hlo hhi m hm hay
    rw [if_neg (by rintro (h | h) <;> omega)]
    refine ⟨cx, cy, hcx', hcy', ?_⟩
    unfold LTPmt.gridValue
    rw [hcx, hcy]

/-- A table with four points; the point nearest to a pair of coordinates, by signs. -/
def pmtDemo : LTPmt := ⟨[(-1, -1), (-1, 1), (1, -1), (1, 1)], [[1], [2], [3], [4]], 2, 2, 10, 5, 1⟩

example : pmtDemo.getValues (fun p => (if p.1 < 0 then 0 else 2) + if p.2 < 0 then 0 else 1) (-1) 1 (-1) 1 2 (-2) 0 = .ok (some 30) ∧
    pmtDemo.getValues (fun _ => 0) (-1) 1 (-1) 1 4 4 0 = .ok none := by decide +kernel

/-- **C60** (PMTs, finding).  The grid is built with its coordinates exchanged: when the points of the table are not the same in `x` and `y` the values
come from the wrong points, or the look-up fails.  Here a table with points at `x = ±1`, `y = ±3`: the light at (1, 3), that of the point (1, 3),
is read from the point nearest to (3, 1). -/
theorem pmt_rectangular_table : ∃ (t : LTPmt) (seen : ℚ × ℚ), t.points = [(-1, -3), (-1, 3), (1, -3), (1, 3)] ∧ t.binX = 2 ∧ t.binY = 6 ∧
    (gridCentres (-1) 1 t.activeR t.binX)[(cround ((1 - lowBound (-1) t.activeR t.binX) / t.binX)).toNat]? = some 1 ∧
    (gridCentres (-3) 3 t.activeR t.binY)[(cround ((3 - lowBound (-3) t.activeR t.binY) / t.binY)).toNat]? = some 3 ∧
    seen ≠ (1, 3) ∧ ∀ nearest : ℚ × ℚ → Nat, t.getValues nearest (-1) 1 (-3) 3 1 3 0 = .ok (some (((t.values.getD (nearest seen) []).map (· * t.ratio)).getD 0 0)) := by
  refine ⟨⟨[(-1, -3), (-1, 3), (1, -3), (1, 3)], [[1], [2], [3], [4]], 2, 6, 1, 4, 1⟩, (9, -1), rfl, rfl, rfl, by decide +kernel, by decide +kernel,
    by decide +kernel, ?_⟩
  intro nearest
  have h1 : cround ((1 - lowBound (-1) 4 2) / 2) = 3 := by decide +kernel
  have h2 : cround ((3 - lowBound (-3) 4 6) / 6) = 2 := by decide +kernel
  have h3 : (gridCentres (-3) 3 4 6)[(3 : Nat)]? = some 9 := by decide +kernel
  have h4 : (gridCentres (-1) 1 4 2)[(2 : Nat)]? = some (-1) := by decide +kernel
  unfold LTPmt.getValues
  simp only
  rw [if_neg (by decide +kernel), if_neg (by decide), h1, h2, if_neg (by decide)]
  unfold LTPmt.gridValue
  rw [show (3 : Int).toNat = 3 from rfl, show (2 : Int).toNat = 2 from rfl, h3, h4]

end Verif.Detsim
