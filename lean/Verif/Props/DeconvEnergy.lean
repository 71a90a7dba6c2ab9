import Verif.Props.DeconvEvents
/-!
# C57: the energy of the deconvolved hits
-/
namespace Verif.Deconv
open Verif.PMapsIO (unique)

/-- **C57** The hits created from an image: one per pixel above the cut (absolute, or relative to the brightest pixel), in order, at the position of the pixel and at the `z` of the slice. -/
theorem create_df (hits : List Row) (z : ℚ) (pixels : List Pixel) (cut : ℚ) (h : DHit) :
    (h ∈ createDf hits z pixels cut .abs ↔ ∃ p ∈ pixels, cut < p.e ∧ h = ⟨(hits.map Row.event).headD 0, (hits.map Row.npeak).headD 0, p.x, p.y, z, some p.e⟩) ∧
    (0 < maxOf (pixels.map Pixel.e) → (h ∈ createDf hits z pixels cut .rel ↔
      ∃ p ∈ pixels, cut * maxOf (pixels.map Pixel.e) < p.e ∧ h = ⟨(hits.map Row.event).headD 0, (hits.map Row.npeak).headD 0, p.x, p.y, z, some p.e⟩)) := by
  constructor
  · simp only [createDf, List.mem_map, List.mem_filter, selected, decide_eq_true_eq]
    constructor
    · rintro ⟨p, ⟨h1, h2⟩, rfl⟩; exact ⟨p, h1, h2, rfl⟩
    · rintro ⟨p, h1, h2, rfl⟩; exact ⟨p, ⟨h1, h2⟩, rfl⟩
  · intro hm
    simp only [createDf, List.mem_map, List.mem_filter, selected, decide_eq_true_eq, Bool.and_eq_true]
    constructor
    · rintro ⟨p, ⟨h1, _, h2⟩, rfl⟩; exact ⟨p, h1, (lt_div_iff₀ hm).1 h2, rfl⟩
    · rintro ⟨p, h1, h2, rfl⟩; exact ⟨p, ⟨h1, hm.ne', (lt_div_iff₀ hm).2 h2⟩, rfl⟩

/-- `maxOf` is the maximum. -/
theorem maxOf_spec (xs : List ℚ) (h : xs ≠ []) : maxOf xs ∈ xs ∧ ∀ x ∈ xs, x ≤ maxOf xs := by
  have hg : ∀ (ys : List ℚ) (y : ℚ), (ys.foldl max y = y ∨ ys.foldl max y ∈ ys) ∧ y ≤ ys.foldl max y ∧ ∀ x ∈ ys, x ≤ ys.foldl max y := by
    intro ys
    induction ys with
    | nil => intro y; simp
    | cons z zs ih =>
      intro y
      obtain ⟨h1, h2, h3⟩ := ih (max y z)
      rw [List.foldl_cons]
      refine ⟨?_, le_trans (le_max_left _ _) h2, ?_⟩
      · rcases h1 with h1 | h1
        · rcases max_choice y z with h | h
          · exact .inl (h1.trans h)
          · exact .inr (by rw [h1, h]; exact List.mem_cons_self)
        · exact .inr (List.mem_cons_of_mem _ h1)
      · intro x hx
        rcases List.mem_cons.1 hx with rfl | hx
        · exact le_trans (le_max_right _ _) h2
        · exact h3 x hx
  cases xs with
  | nil => exact absurd rfl h
  | cons x xs =>
    obtain ⟨h1, h2, h3⟩ := hg xs x
    refine ⟨?_, ?_⟩
    · rcases h1 with h1 | h1
      · show xs.foldl max x ∈ x :: xs
        rw [h1]; exact List.mem_cons_self
      · exact List.mem_cons_of_mem _ h1
    · intro y hy
      rcases List.mem_cons.1 hy with rfl | hy
      · exact h2
      · exact h3 y hy

/-- The hit but its energy. -/
def DHit.fixed (h : DHit) : DHit := { h with e := none }

/-- **C57** `distribute_energy`: the hits share the energy of the peak in proportion to their values: the total is that of the peak. -/
theorem distribute_energy (hs : List DHit) (hits : List Row) (j : Nat) :
    (distributeEnergy hs hits j).map DHit.fixed = hs.map DHit.fixed ∧
    (total hs ≠ 0 → total (distributeEnergy hs hits j) = colSum hits j ∧
      ∀ (i : Nat) (h h' : DHit) (v : ℚ), hs[i]? = some h → (distributeEnergy hs hits j)[i]? = some h' → h.e = some v →
        ∃ v', h'.e = some v' ∧ v' * total hs = v * colSum hits j) ∧
    (total hs = 0 → ∀ h ∈ distributeEnergy hs hits j, h.e = none) := by
  refine ⟨?_, fun hne => ⟨?_, ?_⟩, fun h0 h hh => ?_⟩
  · simp only [distributeEnergy, List.map_map]; rfl
  · have : ∀ h : DHit, (mulOpt (if total hs = 0 then none else h.e.map (· / total hs)) (some (colSum hits j))).getD 0 = h.e.getD 0 * (colSum hits j / total hs) := by
      intro h
      rw [if_neg hne]
      cases h.e with
      | none => simp [mulOpt]
      | some v => simp only [Option.map_some, mulOpt, Option.getD_some]; ring
    rw [total, distributeEnergy, List.map_map]
    simp only [Function.comp_def, this]
    rw [List.sum_map_mul_right, ← total]
    exact mul_div_cancel₀ _ hne
  · intro i h h' v hi hi' hv
    rw [distributeEnergy, List.getElem?_map, hi] at hi'
    cases hi'
    refine ⟨v / total hs * colSum hits j, ?_, ?_⟩
    · simp only [if_neg hne, hv, Option.map_some, mulOpt]
    · field_simp
  · obtain ⟨h', _, rfl⟩ := List.mem_map.1 hh
    simp only [if_pos h0, mulOpt]

/-! ### Events -/

theorem insertQ_perm (x : ℚ) (l : List ℚ) : (insertQ x l).Perm (x :: l) := by
  induction l with
  | nil => exact .refl _
  | cons y ys ih =>
    rw [insertQ]
    split
    · exact .refl _
    · exact (ih.cons y).trans (.swap x y ys)

theorem mem_sortedUnique {xs : List ℚ} {x : ℚ} : x ∈ sortedUnique xs ↔ x ∈ xs := by
  have : (sortedUnique xs).Perm (unique xs) := by
    unfold sortedUnique
    induction unique xs with
    | nil => exact .refl _
    | cons k ks ih => exact (insertQ_perm k _).trans (ih.cons k)
  rw [this.mem_iff, PMapsIO.mem_unique]

/-- The hits of a peak of the event. -/
def hitsOf (df : List Row) (k : Int) : List Row := df.filter fun r => r.npeak == k

/-- The slice of a peak. -/
def sliceOf (df : List Row) (k : Int) (z : ℚ) : List Row := (hitsOf df k).filter fun r => r.z == z

/-- **C57** Where the deconvolved hits come from: each is a pixel above the cut of the image of one slice of one peak, with the number of the peak and the `z` of the slice; and all those pixels give one. -/
theorem deconvolved_hits (deco : List Row → List Pixel) (cut : ℚ) (t : CutType) (j : Nat) (df : List Row) (h : DHit) :
    h.fixed ∈ (deconvolvedExact deco cut t j df).map DHit.fixed ↔
      ∃ k ∈ df.map Row.npeak, ∃ z ∈ (hitsOf df k).map Row.z, ∃ p ∈ deco (sliceOf df k z), selected (deco (sliceOf df k z)) cut t p = true ∧
        h.fixed = ⟨((sliceOf df k z).map Row.event).headD 0, k, p.x, p.y, z, none⟩ := by
  have e : ∀ (hs : List DHit) (hits : List Row), (distributeEnergy hs hits j).map DHit.fixed = hs.map DHit.fixed := fun hs hits => (distribute_energy hs hits j).1
  simp only [deconvolvedExact, List.map_flatMap, e, List.mem_flatMap, (Sources.groupKeys_spec _).2]
  constructor
  · rintro ⟨k, hk, hm⟩
    obtain ⟨h', hh', he⟩ := List.mem_map.1 hm
    obtain ⟨z, hz, hh2⟩ := List.mem_flatMap.1 hh'
    obtain ⟨h2, hh3, rfl⟩ := List.mem_map.1 hh2
    obtain ⟨p, hp, rfl⟩ := List.mem_map.1 hh3
    obtain ⟨hp1, hp2⟩ := List.mem_filter.1 hp
    exact ⟨k, hk, z, mem_sortedUnique.1 hz, p, hp1, hp2, he.symm⟩
  · rintro ⟨k, hk, z, hz, p, hp1, hp2, he⟩
    refine ⟨k, hk, List.mem_map.2 ⟨⟨((sliceOf df k z).map Row.event).headD 0, k, p.x, p.y, z, some p.e⟩, ?_, he.symm⟩⟩
    refine List.mem_flatMap.2 ⟨z, mem_sortedUnique.2 hz, List.mem_map.2 ⟨⟨((sliceOf df k z).map Row.event).headD 0, ((sliceOf df k z).map Row.npeak).headD 0, p.x, p.y, z, some p.e⟩, ?_, rfl⟩⟩
    exact List.mem_map.2 ⟨p, List.mem_filter.2 ⟨hp1, hp2⟩, rfl⟩

/-- The deconvolved hits of a peak. -/
def outOf (out : List DHit) (k : Int) : List DHit := out.filter fun h => h.npeak == k

theorem peakHits_npeak {deco : List Row → List Pixel} {cut : ℚ} {t : CutType} {k : Int} {hits : List Row} : ∀ h ∈ peakHits deco cut t k hits, h.npeak = k := by
  intro h hh
  obtain ⟨z, _, hh2⟩ := List.mem_flatMap.1 hh
  obtain ⟨h2, _, rfl⟩ := List.mem_map.1 hh2
  rfl

theorem outOf_exact (deco : List Row → List Pixel) (cut : ℚ) (t : CutType) (j : Nat) (df : List Row) (k : Int) (hk : k ∈ df.map Row.npeak) :
    outOf (deconvolvedExact deco cut t j df) k = distributeEnergy (peakHits deco cut t k (hitsOf df k)) (hitsOf df k) j := by
  have hs := Sources.groupKeys_spec (df.map Row.npeak)
  have := PMapsIO.filter_blocks DHit.npeak (fun k => distributeEnergy (peakHits deco cut t k (hitsOf df k)) (hitsOf df k) j) id (Sources.groupKeys (df.map Row.npeak))
    (by
      intro a _ b hb
      obtain ⟨h, hh, rfl⟩ := List.mem_map.1 hb
      exact peakHits_npeak h hh)
    (by rw [List.map_id]; exact hs.1.imp (fun h => ne_of_lt h)) k ((hs.2 k).2 hk)
  exact this

/-- **C57** The energy of every peak is kept: the total energy of its deconvolved hits is that of its hits, provided some pixel of the peak passes the cut (with a non-zero total). -/
theorem deconvolution_conserves (deco : List Row → List Pixel) (cut : ℚ) (t : CutType) (j : Nat) (df : List Row) (k : Int) (hk : k ∈ df.map Row.npeak)
    (hpos : total (peakHits deco cut t k (hitsOf df k)) ≠ 0) :
    total (outOf (deconvolvedExact deco cut t j df) k) = colSum (hitsOf df k) j := by
  rw [outOf_exact deco cut t j df k hk]
  exact ((distribute_energy _ _ j).2.1 hpos).1

/-- With a non-negative absolute cut, one pixel above it is enough. -/
theorem total_pos_of_abs (deco : List Row → List Pixel) (cut : ℚ) (hc : 0 ≤ cut) (k : Int) (hits : List Row) (z : ℚ) (hz : z ∈ hits.map Row.z)
    (hp : ∃ p ∈ deco (hits.filter fun r => r.z == z), cut < p.e) : total (peakHits deco cut .abs k hits) ≠ 0 := by
  have hall : ∀ h ∈ peakHits deco cut .abs k hits, 0 < h.e.getD 0 := by
    intro h hh
    obtain ⟨z, _, hh2⟩ := List.mem_flatMap.1 hh
    obtain ⟨h2, hh3, rfl⟩ := List.mem_map.1 hh2
    obtain ⟨p, hp, rfl⟩ := List.mem_map.1 hh3
    have := (List.mem_filter.1 hp).2
    simp only [selected, decide_eq_true_eq] at this
    simp only [Option.getD_some]
    linarith
  obtain ⟨p, hp1, hp2⟩ := hp
  have hmem : (⟨((hits.filter fun r => r.z == z).map Row.event).headD 0, k, p.x, p.y, z, some p.e⟩ : DHit) ∈ peakHits deco cut .abs k hits := by
    refine List.mem_flatMap.2 ⟨z, mem_sortedUnique.2 hz, List.mem_map.2 ⟨⟨((hits.filter fun r => r.z == z).map Row.event).headD 0, ((hits.filter fun r => r.z == z).map Row.npeak).headD 0, p.x, p.y, z, some p.e⟩, ?_, rfl⟩⟩
    exact List.mem_map.2 ⟨p, List.mem_filter.2 ⟨hp1, by simpa [selected] using hp2⟩, rfl⟩
  have h1 : (0 : ℚ) < p.e := by linarith
  have h2 := List.single_le_sum (l := (peakHits deco cut .abs k hits).map fun h => h.e.getD 0) (by
    intro x hx
    obtain ⟨h, hh, rfl⟩ := List.mem_map.1 hx
    exact (hall h hh).le) p.e (List.mem_map.2 ⟨_, hmem, rfl⟩)
  have : 0 < total (peakHits deco cut .abs k hits) := lt_of_lt_of_le h1 h2
  exact this.ne'

theorem roundEven_close (x : ℚ) : |(Sampling.roundEven x : ℚ) - x| ≤ 1 / 2 := by
  have h1 := Int.floor_le x
  have h2 := Int.lt_floor_add_one x
  unfold Sampling.roundEven
  split
  · rw [abs_le]; constructor <;> linarith
  · split
    · push_cast; rw [abs_le]; constructor <;> linarith
    · split
      · rw [abs_le]; constructor <;> linarith
      · push_cast; rw [abs_le]; constructor <;> linarith

theorem round6_close (x : ℚ) : |round6 x - x| ≤ 1 / 2000000 := by
  have h := roundEven_close (x * 1000000)
  unfold round6
  rw [abs_le] at h ⊢
  constructor <;> linarith [h.1, h.2]

/-- **C57** `apply_deconvolution` fails only for events without hits; the energies of the hits are those of the exact sharing rounded to six decimals, so the energy of a peak is kept up to half a unit of the sixth decimal per hit. -/
theorem apply_deconvolution (deco : List Row → List Pixel) (cut : ℚ) (t : CutType) (j : Nat) (df : List Row) :
    (df = [] → applyDeconvolution deco cut t j df = .error .valueError) ∧
    (df ≠ [] → ∃ out, applyDeconvolution deco cut t j df = .ok out ∧ out.map DHit.fixed = (deconvolvedExact deco cut t j df).map DHit.fixed ∧
      ∀ k ∈ df.map Row.npeak, total (peakHits deco cut t k (hitsOf df k)) ≠ 0 →
        |total (outOf out k) - colSum (hitsOf df k) j| ≤ (outOf out k).length / 2000000) := by
  unfold applyDeconvolution
  refine ⟨fun h => by rw [h]; rfl, fun h => ?_⟩
  rw [if_neg (by rw [List.length_eq_zero_iff]; exact h)]
  refine ⟨_, rfl, by rw [List.map_map]; rfl, fun k hk hpos => ?_⟩
  have hout : outOf ((deconvolvedExact deco cut t j df).map fun h => { h with e := h.e.map round6 }) k =
      (outOf (deconvolvedExact deco cut t j df) k).map fun h => { h with e := h.e.map round6 } := by
    unfold outOf
    rw [List.filter_map]
    rfl
  rw [hout, ← deconvolution_conserves deco cut t j df k hk hpos, List.length_map]
  generalize outOf (deconvolvedExact deco cut t j df) k = l
  induction l with
  | nil => simp [total]
  | cons h l ih =>
    simp only [total, List.map_cons, List.sum_cons, List.length_cons] at ih ⊢
    have h1 : |((h.e.map round6).getD 0) - h.e.getD 0| ≤ 1 / 2000000 := by
      cases h.e with
      | none => simp
      | some v => exact round6_close v
    rw [abs_le] at ih h1 ⊢
    push_cast
    constructor <;> linarith [ih.1, ih.2, h1.1, h1.2]

/-- **C57** `find_nearest` returns an element of the array at the smallest distance, the first one; it fails for an empty array. -/
theorem find_nearest (array : List ℚ) (v : ℚ) :
    (array = [] → findNearest array v = .error .valueError) ∧
    (array ≠ [] → ∃ (i : Nat) (a : ℚ), findNearest array v = .ok a ∧ array[i]? = some a ∧ (∀ b ∈ array, |a - v| ≤ |b - v|) ∧
      ∀ (i' : Nat) (b : ℚ), i' < i → array[i']? = some b → |a - v| < |b - v|) := by
  refine ⟨fun h => by rw [h]; rfl, fun h => ?_⟩
  unfold findNearest
  cases hi : argmin (array.map fun a => |a - v|) with
  | error e =>
    exfalso
    have : array.map (fun a => |a - v|) ≠ [] := by simpa using h
    cases hc : array.map (fun a => |a - v|) with
    | nil => exact this hc
    | cons x xs =>
      rw [hc, argmin] at hi
      split at hi
      · cases hi
      · split at hi <;> cases hi
  | ok i =>
    obtain ⟨m, h1, h2, h3⟩ := argmin_spec hi
    rw [List.getElem?_map, Option.map_eq_some_iff] at h1
    obtain ⟨a, ha, rfl⟩ := h1
    refine ⟨i, a, ?_, ha, ?_, ?_⟩
    · simp only [List.getD_eq_getElem?_getD, ha, Option.getD_some]
    · intro b hb; exact h2 _ (List.mem_map_of_mem hb)
    · intro i' b hlt hb
      exact h3 i' hlt _ (by rw [List.getElem?_map, hb]; rfl)

/-! ### Examples -/

/-- A deconvolution that gives two pixels to each hit. -/
def exDeco (hits : List Row) : List Pixel := hits.flatMap fun r => [⟨r.q, r.x - 1, r.y⟩, ⟨r.q / 10, r.x + 1, r.y⟩]

example : (applyDeconvolution exDeco 1 .abs 0 exEvent).map (·.map fun h => (h.npeak, h.x, h.e)) =
    .ok [(0, -1, some (5)), (0, 9, some (1)), (1, 9, some (3/2)), (1, -1, some (9/2))] ∧
    total (peakHits exDeco 1 .abs 0 (hitsOf exEvent 0)) ≠ 0 ∧ (0 : Int) ∈ exEvent.map Row.npeak := by
  refine ⟨by decide +kernel, by decide +kernel, by decide +kernel⟩
/-- When no pixel of a peak passes the cut, the energy of the peak is lost. -/
theorem peak_without_pixels_is_lost : (applyDeconvolution exDeco 8 .abs 0 (exEvent ++ [⟨4, 1, 2, 2, 0, 0, 0, 1, [some 100]⟩])).map (·.map DHit.npeak) = .ok [0, 1] := by decide +kernel
example : findNearest [1, 5, 3, 3] 4 = .ok 5 ∧ findNearest [1, 5, 3, 3] (7/2) = .ok 3 := by exact ⟨by decide +kernel, by decide +kernel⟩

end Verif.Deconv
