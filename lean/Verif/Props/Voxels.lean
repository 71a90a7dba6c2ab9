import Verif.Model.Voxels
import Verif.Props.Hits
/-!
# C27: voxelisation
-/
namespace Verif.Voxels

/-- The point `h` is inside the voxel `v`: at most half a size from its centre along each axis (the lower side is
included, the upper is not). -/
def Inside (v : Voxel) (h : PHit) : Prop :=
  ∀ a : Axis, v.at a - v.size a / 2 ≤ h.at a ∧ h.at a < v.at a + v.size a / 2

/-- Sum of the energies of hits. -/
def total (hits : List PHit) : ℚ := (hits.map PHit.e).sum

/-! ### One axis -/

theorem npMin_le {xs : List ℚ} {x : ℚ} (h : x ∈ xs) : npMin xs ≤ x := by
  induction xs with
  | nil => cases h
  | cons y ys ih =>
    cases ys with
    | nil => simp only [List.mem_singleton] at h; subst h; exact le_rfl
    | cons z zs =>
      simp only [npMin]
      rcases List.mem_cons.1 h with rfl | h
      · exact min_le_left ..
      · exact (min_le_right ..).trans (ih h)

theorem le_npMax {xs : List ℚ} {x : ℚ} (h : x ∈ xs) : x ≤ npMax xs := by
  induction xs with
  | nil => cases h
  | cons y ys ih =>
    cases ys with
    | nil => simp only [List.mem_singleton] at h; subst h; exact le_rfl
    | cons z zs =>
      simp only [npMax]
      rcases List.mem_cons.1 h with rfl | h
      · exact le_max_left ..
      · exact (ih h).trans (le_max_right ..)

theorem countP_range {p : Nat → Bool} {k : Nat} : ∀ {m : Nat}, k ≤ m → (∀ i < m, p i = true ↔ i < k) → (List.range m).countP p = k := by
  intro m
  induction m generalizing k with
  | zero => intro h _; simp at h; simp [h]
  | succ m ih =>
    intro hk hp
    rw [List.range_succ, List.countP_append]
    by_cases h : k ≤ m
    · have h1 := ih h fun i hi => hp i (by omega)
      have h2 : p m = false := by
        have := (hp m (by omega)).not.2 (by omega)
        simpa using this
      simp [h1, h2]
    · have hk' : k = m + 1 := by omega
      have h1 := ih (k := m) le_rfl fun i hi => (hp i (by omega)).trans ⟨fun _ => hi, fun _ => by omega⟩
      have h2 : p m = true := (hp m (by omega)).2 (by omega)
      rw [h1]; simp [h2, hk']

/-- The interval containing a point, among the `n` equal intervals between `a` and `a + n s`. -/
theorem exists_cell (a s c : ℚ) (n : Nat) (hs : 0 < s) (h1 : a ≤ c) (h2 : c < a + n * s) :
    ∃ k < n, a + k * s ≤ c ∧ c < a + (k + 1) * s := by
  induction n with
  | zero => simp at h2; linarith
  | succ n ih =>
    by_cases h : c < a + n * s
    · obtain ⟨k, hk, h3⟩ := ih h
      exact ⟨k, by omega, h3⟩
    · exact ⟨n, by omega, not_lt.1 h, by push_cast at h2; exact h2⟩

theorem cell_unique {a s c : ℚ} {k i : Nat} (hs : 0 < s) (h1 : a + k * s ≤ c) (h2 : c < a + (k + 1) * s)
    (h3 : a + i * s ≤ c) (h4 : c < a + (i + 1) * s) : k = i := by
  have l1 : (k : ℚ) * s < (i + 1) * s := by linarith
  have l2 : (i : ℚ) * s < (k + 1) * s := by linarith
  have m1 := lt_of_mul_lt_mul_right l1 hs.le
  have m2 := lt_of_mul_lt_mul_right l2 hs.le
  have m3 : k < i + 1 := by exact_mod_cast m1
  have m4 : i < k + 1 := by exact_mod_cast m2
  omega

/-- Bins of equal size: where `np.histogramdd` and `np.digitize` put a point strictly inside the range. -/
theorem linspace_bin {a b c : ℚ} {n k : Nat} (hk : k < n) (hs : 0 < (b - a) / n)
    (h1 : a + k * ((b - a) / n) ≤ c) (h2 : c < a + (k + 1) * ((b - a) / n)) (hcb : c < b) :
    histBin (linspace a b n) c = some k ∧ digitizeClip (linspace a b n) n c = k := by
  have hn : 0 < n := by omega
  have hnq : (n : ℚ) ≠ 0 := by exact_mod_cast hn.ne'
  have count : searchRight (linspace a b n) c = k + 1 := by
    unfold searchRight linspace
    rw [List.countP_map]
    apply countP_range (by omega)
    intro i _
    simp only [Function.comp, decide_eq_true_eq]
    constructor
    · intro h
      have l1 : (i : ℚ) * ((b - a) / n) < (k + 1) * ((b - a) / n) := by linarith
      have := lt_of_mul_lt_mul_right l1 hs.le
      exact_mod_cast this
    · intro h
      have : (i : ℚ) ≤ k := by exact_mod_cast (by omega : i ≤ k)
      have := mul_le_mul_of_nonneg_right this hs.le
      linarith
  have hlast : (linspace a b n).getLast? ≠ some c := by
    unfold linspace
    rw [List.range_succ, List.map_append]
    simp only [List.map_cons, List.map_nil, List.getLast?_append, List.getLast?_singleton, Option.some_or, Option.some.injEq, ne_eq]
    rw [mul_div_cancel₀ _ hnq]
    intro h
    linarith
  have hlen : (linspace a b n).length = n + 1 := by simp [linspace]
  constructor
  · simp only [histBin, if_neg hlast, count, hlen]
    rw [if_pos (by omega)]; rfl
  · simp only [digitizeClip, count]; omega

theorem linspace_getElem? {a b : ℚ} {n i : Nat} (hi : i ≤ n) : (linspace a b n)[i]? = some (a + i * ((b - a) / n)) := by
  unfold linspace
  rw [List.getElem?_map, List.getElem?_range (by omega)]; rfl

theorem centres_linspace {a b : ℚ} {n i : Nat} (hi : i < n) :
    (centres (linspace a b n)).getD i 0 = a + i * ((b - a) / n) + ((b - a) / n) / 2 := by
  unfold centres
  rw [List.getD_eq_getElem?_getD, List.getElem?_zipWith, List.getElem?_tail, linspace_getElem? (by omega), linspace_getElem? hi.le]
  simp only [Option.getD_some]
  push_cast
  ring

theorem sizes_linspace {a b : ℚ} {n : Nat} (hn : 0 < n) : (sizes (linspace a b n)).getD 0 0 = (b - a) / n := by
  unfold sizes
  rw [List.getD_eq_getElem?_getD, List.getElem?_zipWith, List.getElem?_tail, linspace_getElem? (by omega), linspace_getElem? (by omega)]
  simp only [Option.getD_some]
  push_cast
  ring

/-- What is needed of an axis: the cells are the `n` half-open intervals of size `s` from `a` on, every coordinate is in
one of them, and the size is as requested. -/
theorem axis_ok (coords : List ℚ) (dim : ℚ) (strict : Bool) (hd : 0 < dim) (hne : coords ≠ []) :
    ∃ a s : ℚ, 0 < s ∧ 0 < (axisEdges coords dim strict).2 ∧
      (∀ i < (axisEdges coords dim strict).2, (centres (axisEdges coords dim strict).1).getD i 0 = a + i * s + s / 2) ∧
      (sizes (axisEdges coords dim strict).1).getD 0 0 = s ∧
      (∀ c ∈ coords, ∃ k < (axisEdges coords dim strict).2, histBin (axisEdges coords dim strict).1 c = some k ∧
        digitizeClip (axisEdges coords dim strict).1 (axisEdges coords dim strict).2 c = k ∧ a + k * s ≤ c ∧ c < a + (k + 1) * s) ∧
      s ≤ dim + 2 * eps ∧ (strict = true → dim ≤ s) := by
  set n := numberOfVoxels (npMax coords - npMin coords) dim with hn
  obtain ⟨c0, hc0⟩ := List.exists_mem_of_ne_nil coords hne
  have hsize : 0 ≤ npMax coords - npMin coords := by
    have := npMin_le hc0; have := le_npMax hc0; linarith
  have heps : 0 < eps := by norm_num [eps]
  have hnpos : 0 < n := by
    rw [hn]; unfold numberOfVoxels
    have : (1 : Int) ≤ max 1 ⌈(npMax coords - npMin coords) / dim⌉ := le_max_left ..
    omega
  have hnq : (0 : ℚ) < n := by exact_mod_cast hnpos
  have hnge : (npMax coords - npMin coords) / dim ≤ n := by
    have h1 := Int.le_ceil ((npMax coords - npMin coords) / dim)
    have h2 : ⌈(npMax coords - npMin coords) / dim⌉ ≤ (n : Int) := by
      rw [hn]; unfold numberOfVoxels
      rw [Int.toNat_of_nonneg (le_trans (by norm_num) (le_max_left ..))]
      exact le_max_right ..
    have h3 : ((⌈(npMax coords - npMin coords) / dim⌉ : Int) : ℚ) ≤ ((n : Int) : ℚ) := by exact_mod_cast h2
    push_cast at h3
    linarith
  have hnd : npMax coords - npMin coords ≤ n * dim := by
    rwa [div_le_iff₀ hd] at hnge
  set half := (if strict then n * dim / 2 else (npMax coords - npMin coords) / 2 : ℚ) with hhalf
  have hh : (npMax coords - npMin coords) / 2 ≤ half := by
    rw [hhalf]; split <;> linarith
  have hh2 : half ≤ n * dim / 2 := by
    rw [hhalf]; split <;> linarith
  set a := (npMax coords + npMin coords) / 2 - half - eps with ha
  set b := (npMax coords + npMin coords) / 2 + half + eps with hb
  have hE : axisEdges coords dim strict = (linspace a b n, n) := by
    simp only [axisEdges, ha, hb, hhalf, hn]
  rw [hE]
  have hab : 0 < b - a := by rw [ha, hb]; linarith
  have hs : 0 < (b - a) / n := div_pos hab hnq
  have hns : (n : ℚ) * ((b - a) / n) = b - a := mul_div_cancel₀ _ hnq.ne'
  refine ⟨a, (b - a) / n, hs, hnpos, fun i hi => centres_linspace hi, sizes_linspace hnpos, ?_, ?_, ?_⟩
  · intro c hc
    have h1 := npMin_le hc
    have h2 := le_npMax hc
    have hac : a ≤ c := by rw [ha]; linarith
    have hcb : c < b := by rw [hb]; linarith
    obtain ⟨k, hk, h3, h4⟩ := exists_cell a ((b - a) / n) c n hs hac (by rw [hns]; linarith)
    have := linspace_bin hk hs h3 h4 hcb
    exact ⟨k, hk, this.1, this.2, h3, h4⟩
  · rw [div_le_iff₀ hnq]
    have h1 : (1 : ℚ) ≤ n := by exact_mod_cast hnpos
    have : eps ≤ eps * n := by nlinarith
    rw [ha, hb]; linarith
  · intro hstrict
    have : half = n * dim / 2 := by rw [hhalf, hstrict]; rfl
    rw [le_div_iff₀ hnq, ha, hb, this]; linarith

/-! ### The three axes -/

theorem bne_eq_decide (q : ℚ) : (q != 0) = decide (q ≠ 0) := by
  by_cases h : q = 0 <;> simp [h]


theorem mem_cells {nx ny nz : Nat} {c : Nat × Nat × Nat} : c ∈ cells nx ny nz ↔ c.1 < nx ∧ c.2.1 < ny ∧ c.2.2 < nz := by
  obtain ⟨i, j, k⟩ := c
  simp [cells]

theorem cells_nodup (nx ny nz : Nat) : (cells nx ny nz).Nodup := by
  unfold cells
  rw [List.nodup_flatMap]
  constructor
  · intro i _
    rw [List.nodup_flatMap]
    constructor
    · intro j _
      exact List.Nodup.map (fun a b h => by simpa using h) List.nodup_range
    · exact List.nodup_range.imp fun {j j'} hne => by
        intro c h1 h2
        simp only [List.mem_map] at h1 h2
        obtain ⟨_, _, rfl⟩ := h1
        obtain ⟨_, _, h⟩ := h2
        simp at h
        exact hne h.1.symm
  · exact List.nodup_range.imp fun {j j'} hne => by
      intro c h1 h2
      simp only [List.mem_flatMap, List.mem_map] at h1 h2
      obtain ⟨_, _, _, _, rfl⟩ := h1
      obtain ⟨_, _, _, _, h⟩ := h2
      simp at h
      exact hne h.1.symm

/-- The voxelisation in terms of a map `cell` from hits to cells. -/
theorem voxelize_cells {hits : List PHit} {dx dy dz : ℚ} {strict : Bool} (hx : 0 < dx) (hy : 0 < dy) (hz : 0 < dz) (hne : hits ≠ []) :
    ∃ (nx ny nz : Nat) (cell : PHit → Nat × Nat × Nat) (mk : Nat × Nat × Nat → Voxel) (s : Axis → ℚ),
      voxelizeHits hits dx dy dz strict = .ok (((cells nx ny nz).filter fun c => decide (total (hits.filter fun h => cell h == c) ≠ 0)).map mk) ∧
      (∀ h ∈ hits, cell h ∈ cells nx ny nz) ∧
      (∀ c ∈ cells nx ny nz, (mk c).e = total (hits.filter fun h => cell h == c) ∧ (mk c).hits = (hits.filter fun h => cell h == c) ∧
        (mk c).size = s ∧ ∀ h ∈ hits, cell h = c ↔ Inside (mk c) h) ∧
      (∀ c ∈ cells nx ny nz, ∀ c' ∈ cells nx ny nz, ((mk c).x, (mk c).y, (mk c).z) = ((mk c').x, (mk c').y, (mk c').z) → c = c') ∧
      (∀ a, 0 < s a) ∧
      (s .x ≤ dx + 2 * eps ∧ s .y ≤ dy + 2 * eps ∧ s .z ≤ dz + 2 * eps) ∧ (strict = true → dx ≤ s .x ∧ dy ≤ s .y ∧ dz ≤ s .z) := by
  obtain ⟨ax, sx, psx, pnx, cx, zx, kx, lx, tx⟩ := axis_ok (hits.map PHit.x) dx strict hx (by simpa using hne)
  obtain ⟨ay, sy, psy, pny, cy, zy, ky, ly, ty⟩ := axis_ok (hits.map PHit.y) dy strict hy (by simpa using hne)
  obtain ⟨az, sz, psz, pnz, cz, zz, kz, lz, tz⟩ := axis_ok (hits.map PHit.z) dz strict hz (by simpa using hne)
  set ex := (axisEdges (hits.map PHit.x) dx strict).1
  set ey := (axisEdges (hits.map PHit.y) dy strict).1
  set ez := (axisEdges (hits.map PHit.z) dz strict).1
  set nx := (axisEdges (hits.map PHit.x) dx strict).2
  set ny := (axisEdges (hits.map PHit.y) dy strict).2
  set nz := (axisEdges (hits.map PHit.z) dz strict).2
  let cell : PHit → Nat × Nat × Nat := fun h => (digitizeClip ex nx h.x, digitizeClip ey ny h.y, digitizeClip ez nz h.z)
  let mk : Nat × Nat × Nat → Voxel := fun c =>
      { x := (centres ex).getD c.1 0, y := (centres ey).getD c.2.1 0, z := (centres ez).getD c.2.2 0
        e := total (hits.filter fun h => cell h == c)
        sx := (sizes ex).getD 0 0, sy := (sizes ey).getD 0 0, sz := (sizes ez).getD 0 0
        hits := hits.filter fun h => cell h == c }
  have hcell : ∀ h ∈ hits, ∃ kx' < nx, ∃ ky' < ny, ∃ kz' < nz, cell h = (kx', ky', kz') ∧
      histBin ex h.x = some kx' ∧ histBin ey h.y = some ky' ∧ histBin ez h.z = some kz' ∧
      (ax + kx' * sx ≤ h.x ∧ h.x < ax + (kx' + 1) * sx) ∧ (ay + ky' * sy ≤ h.y ∧ h.y < ay + (ky' + 1) * sy) ∧
      (az + kz' * sz ≤ h.z ∧ h.z < az + (kz' + 1) * sz) := by
    intro h hh
    obtain ⟨i, hi, i1, i2, i3⟩ := kx h.x (List.mem_map.2 ⟨h, hh, rfl⟩)
    obtain ⟨j, hj, j1, j2, j3⟩ := ky h.y (List.mem_map.2 ⟨h, hh, rfl⟩)
    obtain ⟨k, hk, k1, k2, k3⟩ := kz h.z (List.mem_map.2 ⟨h, hh, rfl⟩)
    exact ⟨i, hi, j, hj, k, hk, by simp only [cell, i2, j2, k2], i1, j1, k1, i3, j3, k3⟩
  have hin : ∀ c : Nat × Nat × Nat, (hits.filter fun h => digitizeClip ex nx h.x == c.1 && digitizeClip ey ny h.y == c.2.1 && digitizeClip ez nz h.z == c.2.2) =
      hits.filter fun h => cell h == c := by
    intro c
    apply List.filter_congr
    intro h hh
    rw [Bool.eq_iff_iff]
    simp only [cell, Bool.and_eq_true, beq_iff_eq, Prod.ext_iff, and_assoc]
  have hhist : ∀ c : Nat × Nat × Nat, (hits.filter fun h => histBin ex h.x == some c.1 && histBin ey h.y == some c.2.1 && histBin ez h.z == some c.2.2) =
      hits.filter fun h => cell h == c := by
    intro c
    apply List.filter_congr
    intro h hh
    obtain ⟨i, _, j, _, k, _, hc, h1, h2, h3, _⟩ := hcell h hh
    rw [Bool.eq_iff_iff, hc, h1, h2, h3]
    simp only [Bool.and_eq_true, beq_iff_eq, Option.some.injEq, Prod.ext_iff, and_assoc]
  refine ⟨nx, ny, nz, cell, mk, fun a => match a with | .x => sx | .y => sy | .z => sz, ?_, ?_, ?_, ?_, ?_, ?_, ?_⟩
  · have hv : voxelizeHits hits dx dy dz strict = .ok (((cells nx ny nz).filter fun c =>
        ((hits.filter fun h => histBin ex h.x == some c.1 && histBin ey h.y == some c.2.1 && histBin ez h.z == some c.2.2).map PHit.e).sum != 0).map fun c =>
        { x := (centres ex).getD c.1 0, y := (centres ey).getD c.2.1 0, z := (centres ez).getD c.2.2 0
          e := ((hits.filter fun h => histBin ex h.x == some c.1 && histBin ey h.y == some c.2.1 && histBin ez h.z == some c.2.2).map PHit.e).sum
          sx := (sizes ex).getD 0 0, sy := (sizes ey).getD 0 0, sz := (sizes ez).getD 0 0
          hits := hits.filter fun h => digitizeClip ex nx h.x == c.1 && digitizeClip ey ny h.y == c.2.1 && digitizeClip ez nz h.z == c.2.2 }) := by
      unfold voxelizeHits
      rw [if_neg (by simpa using hne)]
    rw [hv]
    simp only [hhist, hin]
    refine congrArg (fun l => Except.ok (List.map mk l)) ?_
    apply List.filter_congr
    intro c _
    show (total (List.filter (fun h => cell h == c) hits) != 0) = _
    exact bne_eq_decide _
  · intro h hh
    obtain ⟨i, hi, j, hj, k, hk, hc, _⟩ := hcell h hh
    rw [hc, mem_cells]; exact ⟨hi, hj, hk⟩
  · intro c hc
    rw [mem_cells] at hc
    refine ⟨rfl, rfl, ?_, ?_⟩
    · funext a; cases a <;> simp only [mk, Voxel.size] <;> assumption
    · intro h hh
      obtain ⟨i, hi, j, hj, k, hk, hcl, _, _, _, ⟨x1, x2⟩, ⟨y1, y2⟩, ⟨z1, z2⟩⟩ := hcell h hh
      have ex1 : (mk c).x = ax + c.1 * sx + sx / 2 := cx _ hc.1
      have ey1 : (mk c).y = ay + c.2.1 * sy + sy / 2 := cy _ hc.2.1
      have ez1 : (mk c).z = az + c.2.2 * sz + sz / 2 := cz _ hc.2.2
      have dx1 : (mk c).sx = sx := zx
      have dy1 : (mk c).sy = sy := zy
      have dz1 : (mk c).sz = sz := zz
      rw [hcl]
      constructor
      · rintro rfl a
        cases a <;> simp only [Voxel.at, Voxel.size, PHit.at]
        · rw [ex1, dx1]; exact ⟨by linarith, by simp only; linarith⟩
        · rw [ey1, dy1]; exact ⟨by linarith, by simp only; linarith⟩
        · rw [ez1, dz1]; exact ⟨by linarith, by simp only; linarith⟩
      · intro hI
        have hIx := hI .x
        have hIy := hI .y
        have hIz := hI .z
        simp only [Voxel.at, Voxel.size, PHit.at] at hIx hIy hIz
        rw [ex1, dx1] at hIx
        rw [ey1, dy1] at hIy
        rw [ez1, dz1] at hIz
        ext
        · exact cell_unique psx x1 x2 (by linarith [hIx.1]) (by linarith [hIx.2])
        · exact cell_unique psy y1 y2 (by linarith [hIy.1]) (by linarith [hIy.2])
        · exact cell_unique psz z1 z2 (by linarith [hIz.1]) (by linarith [hIz.2])
  · intro c hc c' hc' heq
    rw [mem_cells] at hc hc'
    simp only [Prod.mk.injEq] at heq
    have ex1 : (mk c).x = ax + c.1 * sx + sx / 2 := cx _ hc.1
    have ey1 : (mk c).y = ay + c.2.1 * sy + sy / 2 := cy _ hc.2.1
    have ez1 : (mk c).z = az + c.2.2 * sz + sz / 2 := cz _ hc.2.2
    have ex2 : (mk c').x = ax + c'.1 * sx + sx / 2 := cx _ hc'.1
    have ey2 : (mk c').y = ay + c'.2.1 * sy + sy / 2 := cy _ hc'.2.1
    have ez2 : (mk c').z = az + c'.2.2 * sz + sz / 2 := cz _ hc'.2.2
    obtain ⟨q1, q2, q3⟩ := heq
    rw [ex1, ex2] at q1
    rw [ey1, ey2] at q2
    rw [ez1, ez2] at q3
    have r1 : (c.1 : ℚ) = c'.1 := mul_right_cancel₀ psx.ne' (by linarith)
    have r2 : (c.2.1 : ℚ) = c'.2.1 := mul_right_cancel₀ psy.ne' (by linarith)
    have r3 : (c.2.2 : ℚ) = c'.2.2 := mul_right_cancel₀ psz.ne' (by linarith)
    ext
    · exact_mod_cast r1
    · exact_mod_cast r2
    · exact_mod_cast r3
  · intro a; cases a <;> assumption
  · exact ⟨lx, ly, lz⟩
  · intro h; exact ⟨tx h, ty h, tz h⟩

/-- **C27** No hits: `NoHits`. -/
theorem voxelize_no_hits (dx dy dz : ℚ) (strict : Bool) : voxelizeHits [] dx dy dz strict = .error (.other "NoHits") := rfl

/-- **C27** The voxels: each one has exactly the hits inside it, their total energy, which is not zero, and the common size,
which is positive, at most the requested one (plus the small margin), and at least the requested one in strict mode. -/
theorem voxelize_spec (hits : List PHit) (dx dy dz : ℚ) (strict : Bool) (hx : 0 < dx) (hy : 0 < dy) (hz : 0 < dz) (hne : hits ≠ []) :
    ∃ vs s, voxelizeHits hits dx dy dz strict = .ok vs ∧ 0 < s .x ∧ 0 < s .y ∧ 0 < s .z ∧
      (s .x ≤ dx + 2 * eps ∧ s .y ≤ dy + 2 * eps ∧ s .z ≤ dz + 2 * eps) ∧ (strict = true → dx ≤ s .x ∧ dy ≤ s .y ∧ dz ≤ s .z) ∧
      ∀ v ∈ vs, v.size = s ∧ v.e = total v.hits ∧ v.e ≠ 0 ∧ v.hits.Sublist hits ∧ ∀ h ∈ hits, h ∈ v.hits ↔ Inside v h := by
  obtain ⟨nx, ny, nz, cell, mk, s, h1, h2, h3, h4, h5, h6, h7⟩ := voxelize_cells (strict := strict) hx hy hz hne
  refine ⟨_, s, h1, h5 _, h5 _, h5 _, h6, h7, ?_⟩
  intro v hv
  obtain ⟨c, hc, rfl⟩ := List.mem_map.1 hv
  obtain ⟨hc, hnz⟩ := List.mem_filter.1 hc
  obtain ⟨g1, g2, g3, g4⟩ := h3 c hc
  refine ⟨g3, by rw [g1, g2], by rw [g1]; simpa using hnz, by rw [g2]; exact List.filter_sublist, ?_⟩
  intro h hh
  rw [g2, List.mem_filter, ← g4 h hh]
  simp [hh]

/-- **C27** No two voxels have the same position, and no hit is in two voxels. -/
theorem voxelize_disjoint (hits : List PHit) (dx dy dz : ℚ) (strict : Bool) (hx : 0 < dx) (hy : 0 < dy) (hz : 0 < dz)
    (vs : List Voxel) (h : voxelizeHits hits dx dy dz strict = .ok vs) :
    vs.Pairwise fun v w => (v.x, v.y, v.z) ≠ (w.x, w.y, w.z) ∧ ∀ p ∈ hits, ¬ (p ∈ v.hits ∧ p ∈ w.hits) := by
  have hne : hits ≠ [] := by rintro rfl; cases h
  obtain ⟨nx, ny, nz, cell, mk, s, h1, h2, h3, h4, _⟩ := voxelize_cells (strict := strict) hx hy hz hne
  rw [h1] at h; cases h
  rw [List.pairwise_map]
  apply (List.Pairwise.filter _ (cells_nodup nx ny nz)).imp_of_mem
  intro c c' hc hc' hcc
  have m := (List.mem_filter.1 hc).1
  have m' := (List.mem_filter.1 hc').1
  refine ⟨fun heq => hcc (h4 c m c' m' heq), ?_⟩
  rintro p hp ⟨p1, p2⟩
  rw [(h3 c m).2.1, List.mem_filter] at p1
  rw [(h3 c' m').2.1, List.mem_filter] at p2
  apply hcc
  rw [← beq_iff_eq.1 p1.2, ← beq_iff_eq.1 p2.2]

theorem sum_cells {hits : List PHit} {cell : PHit → Nat × Nat × Nat} : ∀ {cs : List (Nat × Nat × Nat)}, cs.Nodup → (∀ h ∈ hits, cell h ∈ cs) →
    (cs.map fun c => total (hits.filter fun h => cell h == c)).sum = total hits := by
  induction hits with
  | nil => intro cs _ _; simp [total]
  | cons h hits ih =>
    intro cs hn hm
    have ih := ih hn fun g hg => hm g (List.mem_cons_of_mem _ hg)
    have hstep : (cs.map fun c => total ((h :: hits).filter fun h => cell h == c)) =
        cs.map fun c => (if c = cell h then h.e else 0) + total (hits.filter fun h => cell h == c) := by
      apply List.map_congr_left
      intro c _
      by_cases hc : cell h = c
      · simp [List.filter_cons, hc, total]
      · simp [List.filter_cons, hc, Ne.symm hc, total]
    rw [hstep, List.sum_map_add, ih]
    have : (cs.map fun c => if c = cell h then h.e else 0).sum = h.e := by
      have hmem := hm h List.mem_cons_self
      clear ih hstep hm
      induction cs with
      | nil => cases hmem
      | cons c cs ihc =>
        rw [List.map_cons, List.sum_cons]
        rw [List.nodup_cons] at hn
        by_cases hc : c = cell h
        · rw [if_pos hc]
          have : (cs.map fun c => if c = cell h then h.e else 0).sum = 0 := by
            apply List.sum_eq_zero
            intro x hx
            obtain ⟨c', hc', rfl⟩ := List.mem_map.1 hx
            rw [if_neg]
            rintro rfl
            exact hn.1 (hc ▸ hc')
          rw [this, add_zero]
        · rw [if_neg hc, zero_add]
          apply ihc hn.2
          rcases List.mem_cons.1 hmem with h1 | h1
          · exact absurd h1.symm hc
          · exact h1
    rw [this]; simp [total]

/-- **C27** Total energy is conserved. -/
theorem voxelize_energy (hits : List PHit) (dx dy dz : ℚ) (strict : Bool) (hx : 0 < dx) (hy : 0 < dy) (hz : 0 < dz)
    (vs : List Voxel) (h : voxelizeHits hits dx dy dz strict = .ok vs) : (vs.map Voxel.e).sum = total hits := by
  have hne : hits ≠ [] := by rintro rfl; cases h
  obtain ⟨nx, ny, nz, cell, mk, s, h1, h2, h3, h4, _⟩ := voxelize_cells (strict := strict) hx hy hz hne
  rw [h1] at h; cases h
  rw [← sum_cells (cells_nodup nx ny nz) h2, List.map_map]
  have : ∀ cs : List (Nat × Nat × Nat), (∀ c ∈ cs, c ∈ cells nx ny nz) →
      ((cs.filter fun c => decide (total (hits.filter fun h => cell h == c) ≠ 0)).map (Voxel.e ∘ mk)).sum =
      (cs.map fun c => total (hits.filter fun h => cell h == c)).sum := by
    intro cs
    induction cs with
    | nil => intro _; rfl
    | cons c cs ih =>
      intro hm
      have ih := ih fun c' hc' => hm c' (List.mem_cons_of_mem _ hc')
      have he := (h3 c (hm c List.mem_cons_self)).1
      by_cases hc : total (hits.filter fun h => cell h == c) = 0
      · rw [List.filter_cons_of_neg (by simpa using hc), ih, List.map_cons, List.sum_cons, hc, zero_add]
      · rw [List.filter_cons_of_pos (by simpa using hc), List.map_cons, List.sum_cons, ih, List.map_cons, List.sum_cons]
        simp only [Function.comp, he]
  exact this _ fun c hc => hc

/-- **C27** Each hit belongs to a group of hits which either is the content of one voxel and of no other, or has zero total
energy and is in no voxel. -/
theorem voxelize_each_hit (hits : List PHit) (dx dy dz : ℚ) (strict : Bool) (hx : 0 < dx) (hy : 0 < dy) (hz : 0 < dz)
    (vs : List Voxel) (h : voxelizeHits hits dx dy dz strict = .ok vs) :
    ∀ p ∈ hits, ∃ g : List PHit, p ∈ g ∧ g.Sublist hits ∧
      ((∃ v ∈ vs, v.hits = g ∧ ∀ w ∈ vs, p ∈ w.hits → w = v) ∨ (total g = 0 ∧ ∀ v ∈ vs, ∀ q ∈ g, q ∉ v.hits)) := by
  have hne : hits ≠ [] := by rintro rfl; cases h
  obtain ⟨nx, ny, nz, cell, mk, s, h1, h2, h3, h4, _⟩ := voxelize_cells (strict := strict) hx hy hz hne
  rw [h1] at h; cases h
  intro p hp
  refine ⟨hits.filter fun h => cell h == cell p, List.mem_filter.2 ⟨hp, by simp⟩, List.filter_sublist, ?_⟩
  by_cases hz : total (hits.filter fun h => cell h == cell p) = 0
  · refine Or.inr ⟨hz, ?_⟩
    intro v hv q hq hqv
    obtain ⟨c, hc, rfl⟩ := List.mem_map.1 hv
    obtain ⟨hc, hnz⟩ := List.mem_filter.1 hc
    rw [(h3 c hc).2.1, List.mem_filter] at hqv
    have e1 := beq_iff_eq.1 hqv.2
    have e2 := beq_iff_eq.1 (List.mem_filter.1 hq).2
    rw [← e1, e2] at hnz
    exact (by simpa using hnz : total (hits.filter fun h => cell h == cell p) ≠ 0) hz
  · refine Or.inl ⟨mk (cell p), List.mem_map.2 ⟨cell p, List.mem_filter.2 ⟨h2 p hp, by simpa using hz⟩, rfl⟩, (h3 _ (h2 p hp)).2.1, ?_⟩
    intro w hw hpw
    obtain ⟨c, hc, rfl⟩ := List.mem_map.1 hw
    have hc := (List.mem_filter.1 hc).1
    rw [(h3 c hc).2.1, List.mem_filter] at hpw
    rw [beq_iff_eq.1 hpw.2]

/-- **C27** When all energies are positive each hit is in exactly one voxel. -/
theorem voxelize_all_hits (hits : List PHit) (dx dy dz : ℚ) (strict : Bool) (hx : 0 < dx) (hy : 0 < dy) (hz : 0 < dz)
    (vs : List Voxel) (h : voxelizeHits hits dx dy dz strict = .ok vs) (hpos : ∀ p ∈ hits, 0 < p.e) :
    ∀ p ∈ hits, ∃ v ∈ vs, p ∈ v.hits ∧ ∀ w ∈ vs, p ∈ w.hits → w = v := by
  intro p hp
  obtain ⟨g, hpg, hg, hv | ⟨h0, _⟩⟩ := voxelize_each_hit hits dx dy dz strict hx hy hz vs h p hp
  · obtain ⟨v, hv, rfl, hu⟩ := hv
    exact ⟨v, hv, hpg, hu⟩
  · exfalso
    have : p.e ≤ total g := by
      apply List.single_le_sum
      · intro x hx
        obtain ⟨q, hq, rfl⟩ := List.mem_map.1 hx
        exact (hpos q (hg.subset hq)).le
      · exact List.mem_map.2 ⟨p, hpg, rfl⟩
    have := hpos p hp
    linarith

/-- Hits whose energies cancel belong to no voxel: they are lost in the tracks. -/
theorem cancelling_hits_lost : ∃ vs, voxelizeHits [⟨0, 0, 0, 1, 0⟩, ⟨0, 0, 0, -1, 1⟩, ⟨10, 0, 0, 1, 2⟩] 5 5 5 false = .ok vs ∧
    vs.map Voxel.hits = [[⟨10, 0, 0, 1, 2⟩]] := by
  refine ⟨_, rfl, ?_⟩
  decide +kernel

/-- Four hits in three voxels. -/
def exampleHits : List PHit := [⟨0, 0, 0, 1, 0⟩, ⟨1, 1, 1, 2, 1⟩, ⟨12, 0, 0, 3, 2⟩, ⟨0, 7, 9, 4, 3⟩]

example : ∃ vs, voxelizeHits exampleHits 5 5 5 true = .ok vs ∧ vs.map Voxel.e = [3, 4, 3] ∧ vs.map (fun v => v.hits.map PHit.tag) = [[0, 1], [3], [2]] := by
  refine ⟨_, rfl, ?_⟩
  decide +kernel

example : (0 : ℚ) < 5 ∧ exampleHits ≠ [] ∧ ∀ p ∈ exampleHits, 0 < p.e := by decide +kernel

end Verif.Voxels
