import Verif.Model.Core
/-!
# C07 - C10: ranges, rebinning, bin edges, nearest element and weighted averages
-/
namespace Verif.Core

/-! ### C07 -/

/-- **C07** `in_range` keeps the shape, and its `k`-th element says whether the `k`-th datum lies in
the interval with the requested ends. -/
theorem inRange_spec (data : List ℚ) (lo hi : Option ℚ) (lc rc : Bool) :
    (inRange data lo hi lc rc).length = data.length ∧
    ∀ (k : Nat) (x : ℚ) (b : Bool), data[k]? = some x → (inRange data lo hi lc rc)[k]? = some b →
      (b = true ↔ (∀ l, lo = some l → (lc = true ∧ l ≤ x) ∨ (lc = false ∧ l < x)) ∧
                  (∀ h, hi = some h → (rc = true ∧ x ≤ h) ∨ (rc = false ∧ x < h))) := by
  refine ⟨by simp [inRange], ?_⟩
  intro k x b hx hb
  simp only [inRange, List.getElem?_map, hx, Option.map_some, Option.some.injEq] at hb
  subst hb
  cases lo <;> cases hi <;> cases lc <;> cases rc <;> simp

/-- **C07** Consecutive default ranges partition: every datum in `[a, c)` is in exactly one of `[a, b)`
and `[b, c)`, and nothing else is in either. -/
theorem inRange_partition (data : List ℚ) (a b c : ℚ) (hab : a ≤ b) (hbc : b ≤ c) (k : Nat) (p q r : Bool)
    (hp : (inRange data (some a) (some b))[k]? = some p)
    (hq : (inRange data (some b) (some c))[k]? = some q)
    (hr : (inRange data (some a) (some c))[k]? = some r) :
    r = xor p q ∧ ¬ (p = true ∧ q = true) := by
  simp only [inRange, List.getElem?_map, Option.map_eq_some_iff] at hp hq hr
  obtain ⟨x, hx, rfl⟩ := hp
  obtain ⟨x', hx', rfl⟩ := hq
  obtain ⟨x'', hx'', rfl⟩ := hr
  rw [hx] at hx' hx''
  cases hx'; cases hx''
  simp only [Option.all_some, if_true, Bool.and_eq_true, decide_eq_true_eq]
  constructor
  · by_cases h1 : a ≤ x <;> by_cases h2 : x < b <;> by_cases h3 : x < c <;>
      simp [h1, h2, h3, not_le.2, not_lt.1] <;> (try (simp at h1 h2 h3)) <;> linarith
  · rintro ⟨⟨_, h1⟩, h2, _⟩; simp at h1; linarith

/-- **C07** A `minmax` exists exactly when `min ≤ max`, and then contains exactly the closed interval. -/
theorem minmax_exists (lo hi : ℚ) :
    (lo ≤ hi → ∃ m, MinMax.mk? lo hi = .ok m ∧ ∀ x, m.contains x = true ↔ lo ≤ x ∧ x ≤ hi) ∧
    (hi < lo → MinMax.mk? lo hi = .error .assertion) := by
  refine ⟨fun h => ⟨⟨lo, hi⟩, by simp [MinMax.mk?, h], by simp [MinMax.contains]⟩, fun h => ?_⟩
  simp [MinMax.mk?, not_le.2 h]

/-- **C07** Shifting. -/
theorem minmax_shift (m : MinMax) (hm : m.min ≤ m.max) (s : ℚ) :
    ∃ m', m.add s = .ok m' ∧ (∀ x, m'.contains (x + s) = m.contains x) ∧
    ∃ m'', m.sub s = .ok m'' ∧ ∀ x, m''.contains (x - s) = m.contains x := by
  refine ⟨_, by simp [MinMax.add, MinMax.mk?, hm]; rfl, by simp [MinMax.contains],
    _, by simp [MinMax.sub, MinMax.mk?, hm]; rfl, by simp [MinMax.contains]⟩

/-- **C07** Scaling by a positive factor, and dividing by it. -/
theorem minmax_scale (m : MinMax) (hm : m.min ≤ m.max) (f : ℚ) (hf : 0 < f) :
    ∃ m', m.mul f = .ok m' ∧ (∀ x, m'.contains (x * f) = m.contains x) ∧
    ∃ m'', m.truediv f = .ok m'' ∧ ∀ x, m''.contains (x / f) = m.contains x := by
  have h1 : m.min * f ≤ m.max * f := mul_le_mul_of_nonneg_right hm hf.le
  have hf' : 0 < 1 / f := by positivity
  have h2 : m.min * (1 / f) ≤ m.max * (1 / f) := mul_le_mul_of_nonneg_right hm hf'.le
  refine ⟨⟨m.min * f, m.max * f⟩, by simp only [MinMax.mul, MinMax.mk?, if_pos h1], ?_,
    ⟨m.min * (1 / f), m.max * (1 / f)⟩, ?_, ?_⟩
  · intro x; simp [MinMax.contains, mul_le_mul_iff_left₀ hf]
  · simp only [MinMax.truediv, MinMax.mul, MinMax.mk?, if_pos h2, ne_eq, hf.ne', not_false_eq_true, if_true]
  · intro x
    simp only [MinMax.contains, div_eq_mul_one_div x f, mul_le_mul_iff_left₀ hf']

/-- **C07** A negative factor is rejected, unless the interval is a single point. -/
theorem minmax_scale_negative (m : MinMax) (hm : m.min ≤ m.max) (f : ℚ) (hf : f < 0) :
    m.mul f = .error .assertion ↔ m.min ≠ m.max := by
  have : m.min * f ≤ m.max * f ↔ m.min = m.max := by
    constructor
    · intro h
      by_contra hne
      have hlt : m.min < m.max := lt_of_le_of_ne hm hne
      have := mul_lt_mul_of_neg_right hlt hf
      linarith
    · intro h; rw [h]
  simp only [MinMax.mul, MinMax.mk?, this]
  split <;> simp_all

example : inRange [1, 2, 3, 4] (some 2) (some 4) = [false, true, true, false] := by decide +kernel
example : ∃ m, MinMax.mk? 1 3 = .ok m ∧ m.min ≤ m.max ∧ m.mul (-2) = .error .assertion := ⟨⟨1, 3⟩, by decide +kernel⟩

/-! ### C08 -/

theorem flatten_blocks (arr : List ℚ) (s n : Nat) (h : n * s ≤ arr.length) :
    ((List.range n).map fun i => (arr.drop (i * s)).take s).flatten = arr.take (n * s) := by
  induction n with
  | zero => simp
  | succ n ih =>
    have hn : n * s ≤ arr.length := le_trans (Nat.mul_le_mul_right s (Nat.le_succ n)) h
    rw [List.range_succ, List.map_append, List.flatten_append, ih hn]
    simp only [List.map_cons, List.map_nil, List.flatten_cons, List.flatten_nil, List.append_nil]
    rw [Nat.succ_mul, List.take_add]

/-- **C08** `rebin_array` applies the method to consecutive blocks of `stride` samples which, glued
together, give back the array: without `remainder` up to the `n % stride` trailing samples, with
`remainder` all of it (a last, shorter, block is added when `stride` does not divide `n`). -/
theorem rebinArray_blocks {β : Type} (arr : List ℚ) (stride : Nat) (hs : 0 < stride) (met : List ℚ → β) (remainder : Bool) :
    ∃ blocks : List (List ℚ), rebinArray arr stride met remainder = .ok (blocks.map met) ∧
      blocks.flatten = (if remainder then arr else arr.take (arr.length - arr.length % stride)) ∧
      (∀ b ∈ blocks.take (arr.length / stride), b.length = stride) ∧
      blocks.length = arr.length / stride + (if remainder ∧ arr.length % stride ≠ 0 then 1 else 0) ∧
      (remainder = true → ∀ b ∈ blocks, b ≠ []) := by
  have hdiv : arr.length / stride * stride ≤ arr.length := Nat.div_mul_le_self _ _
  have hmod := Nat.div_add_mod arr.length stride
  have hmod' : arr.length / stride * stride + arr.length % stride = arr.length := by rw [Nat.mul_comm]; exact hmod
  have hfull : ∀ b ∈ (List.range (arr.length / stride)).map (fun i => (arr.drop (i * stride)).take stride), b.length = stride := by
    intro b hb
    obtain ⟨i, hi, rfl⟩ := List.mem_map.1 hb
    have hi' := List.mem_range.1 hi
    have : (i + 1) * stride ≤ arr.length / stride * stride := Nat.mul_le_mul_right _ hi'
    rw [Nat.add_mul] at this
    simp only [List.length_take, List.length_drop]; omega
  have hne : ∀ b ∈ (List.range (arr.length / stride)).map (fun i => (arr.drop (i * stride)).take stride), b ≠ [] := by
    intro b hb h0; have := hfull b hb; rw [h0] at this; simp at this; omega
  unfold rebinArray
  rw [if_neg (by omega)]
  simp only
  by_cases h : remainder = true ∧ arr.length % stride ≠ 0
  · refine ⟨(List.range (arr.length / stride)).map (fun i => (arr.drop (i * stride)).take stride) ++
      [arr.drop (arr.length / stride * stride)], ?_, ?_, ?_, ?_, ?_⟩
    · rw [if_pos h]; simp [Function.comp_def]
    · rw [List.flatten_append, flatten_blocks _ _ _ hdiv]; simp [h.1, List.take_append_drop]
    · rw [List.take_left' (by simp)]; exact hfull
    · rw [if_pos h]; simp
    · intro _ b hb
      rcases List.mem_append.1 hb with hb | hb
      · exact hne b hb
      · simp only [List.mem_singleton] at hb
        subst hb
        intro h0
        have h00 := congrArg List.length h0
        simp only [List.length_drop, List.length_nil] at h00
        omega
  · refine ⟨(List.range (arr.length / stride)).map (fun i => (arr.drop (i * stride)).take stride), ?_, ?_, ?_, ?_, ?_⟩
    · rw [if_neg h]; simp [Function.comp_def]
    · rw [flatten_blocks _ _ _ hdiv]
      cases hr : remainder with
      | false => simp; omega
      | true =>
        have : arr.length % stride = 0 := by
          by_contra hc; exact h ⟨hr, hc⟩
        simp only [if_true]
        rw [List.take_of_length_le (by omega)]
    · intro b hb; exact hfull b (List.mem_of_mem_take hb)
    · rw [if_neg h]; simp
    · intro _ b hb; exact hne b hb

/-- **C08** With `remainder=True` the total is conserved. -/
theorem rebinArray_sum (arr : List ℚ) (stride : Nat) (hs : 0 < stride) :
    ∃ out, rebinArray arr stride List.sum true = .ok out ∧ out.sum = arr.sum := by
  obtain ⟨blocks, h1, h2, _⟩ := rebinArray_blocks arr stride hs List.sum true
  refine ⟨_, h1, ?_⟩
  simp only [if_true] at h2
  rw [← h2, List.sum_flatten]

/-- **C08** Without it, exactly the trailing `n mod stride` samples are lost. -/
theorem rebinArray_sum_no_remainder (arr : List ℚ) (stride : Nat) (hs : 0 < stride) :
    ∃ out, rebinArray arr stride List.sum false = .ok out ∧
      out.sum + (arr.drop (arr.length - arr.length % stride)).sum = arr.sum := by
  obtain ⟨blocks, h1, h2, _⟩ := rebinArray_blocks arr stride hs List.sum false
  refine ⟨_, h1, ?_⟩
  rw [if_neg (by simp)] at h2
  rw [← List.sum_flatten, h2, ← List.sum_append, List.take_append_drop]

example : rebinArray [1, 2, 3, 4, 5] 2 List.sum true = .ok [3, 7, 5] := by decide +kernel
example : rebinArray [1, 2, 3, 4, 5] 2 List.sum false = .ok [3, 7] := by decide +kernel

/-! ### C09 -/

theorem unsorted_false (c : List ℚ) : unsorted c = false ↔ c.Pairwise (· < ·) := by
  rw [← List.isChain_iff_pairwise]
  induction c with
  | nil => simp [unsorted]
  | cons a c ih =>
    cases c with
    | nil => simp [unsorted]
    | cons b c =>
      have : unsorted (a :: b :: c) = (decide (b ≤ a) || unsorted (b :: c)) := by simp [unsorted]
      rw [this, Bool.or_eq_false_iff, ih, List.isChain_cons_cons]
      simp

/-- **C09** Accepted inputs: exactly the non-empty strictly increasing centres inside the range. -/
theorem binedges_accepts (c : List ℚ) (range : Option (ℚ × ℚ)) :
    (∃ e, binedgesFromBincenters c range = .ok e) ↔
      c ≠ [] ∧ c.Pairwise (· < ·) ∧ ∀ lo hi, range = some (lo, hi) → lo < hi ∧ ∀ x ∈ c, lo ≤ x ∧ x ≤ hi := by
  by_cases hu : unsorted c = false
  · have hp := (unsorted_false c).1 hu
    unfold binedgesFromBincenters
    rw [if_neg (by simp [hu])]
    cases c with
    | nil => cases range with
      | none => simp
      | some r => obtain ⟨lo, hi⟩ := r; simp only [List.head?_nil]; split <;> simp
    | cons a c =>
      obtain ⟨l, hl⟩ : ∃ l, (a :: c).getLast? = some l := ⟨_, List.getLast?_eq_getLast_of_ne_nil (by simp)⟩
      have hlmem : l ∈ a :: c := List.mem_of_getLast? hl
      have hfirst : ∀ x ∈ a :: c, a ≤ x := by
        intro x hx
        rcases List.mem_cons.1 hx with rfl | hx
        · exact le_refl _
        · exact ((List.pairwise_cons.1 hp).1 x hx).le
      have hlast : ∀ x ∈ a :: c, x ≤ l := by
        intro x hx
        obtain ⟨pre, hpre⟩ := List.getLast?_eq_some_iff.1 hl
        rw [hpre] at hx hp
        rcases List.mem_append.1 hx with h | h
        · exact (List.pairwise_append.1 hp).2.2 x h l (by simp) |>.le
        · simp at h; exact h.le
      simp only [List.head?_cons, hl]
      cases range with
      | none => simp; exact List.pairwise_cons.1 hp
      | some r =>
        obtain ⟨lo, hi⟩ := r
        simp only [Option.some.injEq, Prod.mk.injEq, ne_eq, reduceCtorEq, not_false_eq_true, true_and]
        constructor
        · intro h
          refine ⟨hp, ?_⟩
          rintro lo' hi' ⟨rfl, rfl⟩
          by_cases h1 : lo < hi
          · rw [if_neg (by simpa using h1)] at h
            by_cases h2 : a < lo ∨ hi < l
            · rw [if_pos h2] at h; simp at h
            · simp only [not_or, not_lt] at h2
              exact ⟨h1, fun x hx => ⟨h2.1.trans (hfirst x hx), (hlast x hx).trans h2.2⟩⟩
          · rw [if_pos h1] at h; simp at h
        · rintro ⟨_, h⟩
          obtain ⟨h1, h2⟩ := h lo hi ⟨rfl, rfl⟩
          rw [if_neg (by simpa using h1), if_neg]
          · exact ⟨_, rfl⟩
          · simp only [not_or, not_lt]
            exact ⟨(h2 a (by simp)).1, (h2 l hlmem).2⟩
  · have : unsorted c = true := by simpa using hu
    have hnp : ¬ c.Pairwise (· < ·) := fun h => by rw [(unsorted_false c).2 h] at this; cases this
    unfold binedgesFromBincenters
    rw [if_pos this]
    simp [hnp]

/-- **C09** Rejections are ValueErrors, except for an empty array without a bad range (IndexError). -/
theorem binedges_rejects (c : List ℚ) (range : Option (ℚ × ℚ)) (e : PyErr)
    (h : binedgesFromBincenters c range = .error e) (hc : c ≠ []) : e = .valueError := by
  obtain ⟨f, hf⟩ : ∃ f, c.head? = some f := by cases c <;> simp_all
  obtain ⟨l, hl⟩ : ∃ l, c.getLast? = some l := ⟨_, List.getLast?_eq_getLast_of_ne_nil hc⟩
  unfold binedgesFromBincenters at h
  simp only [hf, hl] at h
  split at h
  · cases h; rfl
  · split at h
    · cases h
    · split at h
      · cases h; rfl
      · split at h
        · cases h; rfl
        · cases h

theorem midpoints_getElem? (c : List ℚ) (k : Nat) :
    (List.zipWith (fun b a => (b + a) / 2) c.tail c.dropLast)[k]? =
      match c[k]?, c[k + 1]? with
      | some a, some b => some ((b + a) / 2)
      | _, _ => none := by
  rw [List.getElem?_zipWith, List.getElem?_tail, List.getElem?_dropLast]
  by_cases h : k + 1 < c.length
  · rw [if_pos (by omega), List.getElem?_eq_getElem h, List.getElem?_eq_getElem (by omega : k < c.length)]
  · rw [List.getElem?_eq_none (by omega : c.length ≤ k + 1)]
    cases c[k]? <;> simp

/-- The edges: first, midpoints, last. -/
theorem binedges_shape {c : List ℚ} {range : Option (ℚ × ℚ)} {e : List ℚ}
    (h : binedgesFromBincenters c range = .ok e) :
    ∃ lo hi first last, c.head? = some first ∧ c.getLast? = some last ∧
      (range = none → lo = first ∧ hi = last) ∧ (∀ r, range = some r → r = (lo, hi)) ∧
      e = lo :: (List.zipWith (fun b a => (b + a) / 2) c.tail c.dropLast) ++ [hi] := by
  have hacc := (binedges_accepts c range).1 ⟨e, h⟩
  obtain ⟨f, hf⟩ : ∃ f, c.head? = some f := by cases c <;> simp_all
  obtain ⟨l, hl⟩ : ∃ l, c.getLast? = some l := ⟨_, List.getLast?_eq_getLast_of_ne_nil hacc.1⟩
  unfold binedgesFromBincenters at h
  rw [if_neg (by simp [(unsorted_false c).2 hacc.2.1])] at h
  simp only [hf, hl] at h
  cases range with
  | none =>
    simp only [Except.ok.injEq] at h
    exact ⟨f, l, f, l, hf, hl, by simp, by simp, h.symm⟩
  | some r =>
    obtain ⟨lo, hi⟩ := r
    simp only at h
    split at h
    · cases h
    · split at h
      · cases h
      · simp only [Except.ok.injEq] at h
        exact ⟨lo, hi, f, l, hf, hl, by simp, by simp, h.symm⟩

/-- **C09** `n + 1` edges from the start to the end of the range (or from the first to the last centre
without a range), and every centre lies in its bin; in particular edges never decrease. -/
theorem binedges_valid (c : List ℚ) (range : Option (ℚ × ℚ)) (e : List ℚ)
    (h : binedgesFromBincenters c range = .ok e) :
    e.length = c.length + 1 ∧
    e.head? = (match range with | some r => some r.1 | none => c.head?) ∧
    e.getLast? = (match range with | some r => some r.2 | none => c.getLast?) ∧
    ∀ (k : Nat) (x : ℚ), c[k]? = some x → ∃ a b, e[k]? = some a ∧ e[k + 1]? = some b ∧ a ≤ x ∧ x ≤ b := by
  have hacc := (binedges_accepts c range).1 ⟨e, h⟩
  obtain ⟨lo, hi, f, l, hf, hl, hnone, hsome, rfl⟩ := binedges_shape h
  have hpos : 0 < c.length := List.length_pos_iff.2 hacc.1
  have hlen : (List.zipWith (fun b a => (b + a) / 2) c.tail c.dropLast).length = c.length - 1 := by simp
  have hmem0 : f ∈ c := List.mem_of_mem_head? hf
  have hmeml : l ∈ c := List.mem_of_getLast? hl
  have hlo : lo ≤ f := by
    cases range with
    | none => exact (hnone rfl).1.le
    | some r => obtain rfl := hsome r rfl; exact ((hacc.2.2 lo hi rfl).2 f hmem0).1
  have hhi : l ≤ hi := by
    cases range with
    | none => exact (hnone rfl).2.symm.le
    | some r => obtain rfl := hsome r rfl; exact ((hacc.2.2 lo hi rfl).2 l hmeml).2
  refine ⟨by simp; omega, ?_, ?_, ?_⟩
  · cases range with
    | none => simp [hf, (hnone rfl).1]
    | some r => obtain rfl := hsome r rfl; simp
  · rw [List.getLast?_append]
    cases range with
    | none => simp [hl, (hnone rfl).2]
    | some r => obtain rfl := hsome r rfl; simp
  · intro k x hx
    have hk : k < c.length := (List.getElem?_eq_some_iff.1 hx).1
    have hsorted : ∀ i y, c[i]? = some y → ∀ z, c[i + 1]? = some z → y < z := by
      intro i y hy z hz
      obtain ⟨h1, rfl⟩ := List.getElem?_eq_some_iff.1 hy
      obtain ⟨h2, rfl⟩ := List.getElem?_eq_some_iff.1 hz
      exact List.pairwise_iff_getElem.1 hacc.2.1 i (i + 1) h1 h2 (by omega)
    -- left edge
    have hleft : ∃ a, (lo :: (List.zipWith (fun b a => (b + a) / 2) c.tail c.dropLast) ++ [hi])[k]? = some a ∧ a ≤ x := by
      cases k with
      | zero =>
        refine ⟨lo, by simp, ?_⟩
        have : c.head? = c[0]? := by cases c <;> simp
        rw [this, hx] at hf; cases hf; exact hlo
      | succ k =>
        obtain ⟨y, hy⟩ : ∃ y, c[k]? = some y := ⟨_, List.getElem?_eq_getElem (by omega)⟩
        refine ⟨(x + y) / 2, ?_, ?_⟩
        · rw [List.cons_append, List.getElem?_cons_succ, List.getElem?_append_left (by omega), midpoints_getElem?, hy, hx]
        · have := hsorted k y hy x hx; linarith
    have hright : ∃ b, (lo :: (List.zipWith (fun b a => (b + a) / 2) c.tail c.dropLast) ++ [hi])[k + 1]? = some b ∧ x ≤ b := by
      rw [List.cons_append, List.getElem?_cons_succ]
      by_cases hlast : k + 1 < c.length
      · obtain ⟨y, hy⟩ : ∃ y, c[k + 1]? = some y := ⟨_, List.getElem?_eq_getElem hlast⟩
        refine ⟨(y + x) / 2, ?_, ?_⟩
        · rw [List.getElem?_append_left (by omega), midpoints_getElem?, hy, hx]
        · have := hsorted k x hx y hy; linarith
      · refine ⟨hi, ?_, ?_⟩
        · rw [List.getElem?_append_right (by omega), hlen]
          have : k - (c.length - 1) = 0 := by omega
          rw [this]; simp
        · have : c.getLast? = c[k]? := by rw [List.getLast?_eq_getElem?]; congr 1; omega
          rw [this, hx] at hl; cases hl; exact hhi
    obtain ⟨a, ha, hax⟩ := hleft
    obtain ⟨b, hb, hxb⟩ := hright
    exact ⟨a, b, ha, hb, hax, hxb⟩

theorem shift_getElem? (x : List ℚ) (k : Nat) :
    (shiftToBinCenters x)[k]? =
      match x[k]?, x[k + 1]? with
      | some a, some b => some ((a + b) / 2)
      | _, _ => none := by
  unfold shiftToBinCenters
  rw [List.getElem?_zipWith, List.getElem?_dropLast, List.getElem?_zipWith, List.getElem?_tail]
  by_cases h : k + 1 < x.length
  · rw [if_pos (by omega), List.getElem?_eq_getElem h, List.getElem?_eq_getElem (by omega : k < x.length)]
    simp; ring
  · rw [List.getElem?_eq_none (by omega : x.length ≤ k + 1)]
    simp only
    cases x[k]? <;> split <;> simp_all

/-- **C09** `shift_to_bin_centers`: one midpoint per bin. -/
theorem shift_midpoints (x : List ℚ) :
    (shiftToBinCenters x).length = x.length - 1 ∧
    ∀ (k : Nat) (a b : ℚ), x[k]? = some a → x[k + 1]? = some b →
      (shiftToBinCenters x)[k]? = some ((a + b) / 2) ∧ (a ≤ b → a ≤ (a + b) / 2 ∧ (a + b) / 2 ≤ b) := by
  refine ⟨by simp [shiftToBinCenters], ?_⟩
  intro k a b ha hb
  exact ⟨by rw [shift_getElem?, ha, hb], fun h => ⟨by linarith, by linarith⟩⟩

/-- **C09** For equally spaced centres and a range reaching half a bin beyond them, the centres of the
bins built from the centres are the centres. -/
theorem centers_of_edges (c₀ w : ℚ) (hw : 0 < w) (n : Nat) (hn : 0 < n) :
    let c := (List.range n).map fun k : Nat => c₀ + w * (k : ℚ)
    ∃ e, binedgesFromBincenters c (some (c₀ - w / 2, c₀ + w * ((n : ℚ) - 1) + w / 2)) = .ok e ∧
      shiftToBinCenters e = c := by
  intro c
  have hcl : c.length = n := by simp [c]
  have hn1 : (1 : ℚ) ≤ n := by exact_mod_cast hn
  have hck : ∀ k, k < n → c[k]? = some (c₀ + w * (k : ℚ)) := by
    intro k hk; simp [c, hk]
  have hex : ∃ e, binedgesFromBincenters c (some (c₀ - w / 2, c₀ + w * ((n : ℚ) - 1) + w / 2)) = .ok e := by
    rw [binedges_accepts]
    refine ⟨by intro h; rw [h] at hcl; simp at hcl; omega, ?_, ?_⟩
    · rw [List.pairwise_map]
      refine List.pairwise_lt_range.imp ?_
      intro a b hab
      have : (a : ℚ) < b := by exact_mod_cast hab
      nlinarith
    · rintro lo hi h
      simp only [Option.some.injEq, Prod.mk.injEq] at h
      obtain ⟨rfl, rfl⟩ := h
      refine ⟨by nlinarith, ?_⟩
      intro x hx
      obtain ⟨k, hk, rfl⟩ := List.mem_map.1 hx
      have hk1 : (k : ℚ) + 1 ≤ n := by exact_mod_cast (List.mem_range.1 hk)
      have hk0 : (0 : ℚ) ≤ k := by positivity
      constructor <;> nlinarith
  obtain ⟨e, he⟩ := hex
  refine ⟨e, he, ?_⟩
  obtain ⟨lo, hi, f, l, hf, hl, _, hsome, rfl⟩ := binedges_shape he
  have hr := hsome _ rfl
  simp only [Prod.mk.injEq] at hr
  obtain ⟨hlo, hhi⟩ := hr
  have hmlen : (List.zipWith (fun b a => (b + a) / 2) c.tail c.dropLast).length = n - 1 := by simp [hcl]
  have hedge : ∀ k, k ≤ n → (lo :: (List.zipWith (fun b a => (b + a) / 2) c.tail c.dropLast) ++ [hi])[k]? =
      some (c₀ - w / 2 + w * (k : ℚ)) := by
    intro k hk
    cases k with
    | zero => simp [hlo]
    | succ k =>
      rw [List.cons_append, List.getElem?_cons_succ]
      by_cases hk' : k + 1 < n
      · rw [List.getElem?_append_left (by omega), midpoints_getElem?, hck k (by omega), hck (k + 1) hk']
        simp only [Option.some.injEq]; push_cast; ring
      · have hkn : k + 1 = n := by omega
        rw [List.getElem?_append_right (by omega), hmlen]
        have : k - (n - 1) = 0 := by omega
        rw [this]
        simp only [List.getElem?_cons_zero, Option.some.injEq, ← hhi, ← hkn]
        push_cast; ring
  apply List.ext_getElem?
  intro k
  rw [shift_getElem?]
  by_cases hk : k < n
  · rw [hedge k (by omega), hedge (k + 1) (by omega), hck k hk]
    simp only [Option.some.injEq]; push_cast; ring
  · rw [List.getElem?_eq_none (by omega : c.length ≤ k)]
    have : (lo :: (List.zipWith (fun b a => (b + a) / 2) c.tail c.dropLast) ++ [hi])[k + 1]? = none := by
      apply List.getElem?_eq_none; simp [hcl]; omega
    rw [this]
    split <;> simp_all

example : binedgesFromBincenters [1, 2, 4] (some (0, 5)) = .ok [0, 3 / 2, 3, 5] := by decide +kernel
example : shiftToBinCenters [0, 1, 3] = [1 / 2, 2] := by decide +kernel
example : binedgesFromBincenters [1, 1] none = .error .valueError := by decide +kernel

/-! ### C10 -/

/-- **C10** `find_nearest` returns the first of the elements at minimal distance. -/
theorem findNearest_spec (array : List ℚ) (value : ℚ) (hne : array ≠ []) :
    ∃ r pre post, findNearest array value = .ok r ∧ array = pre ++ r :: post ∧
      (∀ y ∈ array, |r - value| ≤ |y - value|) ∧ ∀ y ∈ pre, |r - value| < |y - value| := by
  obtain ⟨j, hj⟩ := argmin_ok (xs := array.map fun x => |x - value|) (by simpa using hne)
  obtain ⟨m, h1, h2, h3⟩ := argmin_spec hj
  simp only [List.getElem?_map, Option.map_eq_some_iff] at h1
  obtain ⟨r, hr, rfl⟩ := h1
  obtain ⟨hlt, hget⟩ := List.getElem?_eq_some_iff.1 hr
  refine ⟨r, array.take j, array.drop (j + 1), ?_, ?_, ?_, ?_⟩
  · simp [findNearest, hj, hr]
  · rw [← hget, ← List.drop_eq_getElem_cons hlt, List.take_append_drop]
  · intro y hy; exact h2 _ (List.mem_map.2 ⟨y, hy, rfl⟩)
  · intro y hy
    obtain ⟨i, hi, rfl⟩ := List.mem_iff_getElem.1 hy
    simp only [List.length_take] at hi
    refine h3 i (by omega) _ ?_
    rw [List.getElem_take, List.getElem?_map, List.getElem?_eq_getElem (by omega)]; rfl

/-- Sum of products: the numerator of a weighted average. -/
def dot (data weights : List ℚ) : ℚ := (List.zipWith (· * ·) data weights).sum

theorem dot_cons (a b : ℚ) (d w : List ℚ) : dot (a :: d) (b :: w) = a * b + dot d w := by simp [dot]

theorem dot_le (d w : List ℚ) (hl : d.length = w.length) (hw : ∀ x ∈ w, 0 ≤ x) (hi : ℚ) (h : ∀ x ∈ d, x ≤ hi) :
    dot d w ≤ hi * w.sum := by
  induction d generalizing w with
  | nil => cases w <;> simp_all [dot]
  | cons a d ih =>
    cases w with
    | nil => simp at hl
    | cons b w =>
      simp only [List.length_cons, Nat.add_right_cancel_iff, List.mem_cons, forall_eq_or_imp] at hl hw h
      have := ih w hl hw.2 h.2
      rw [dot_cons, List.sum_cons]
      nlinarith [hw.1, h.1]

theorem le_dot (d w : List ℚ) (hl : d.length = w.length) (hw : ∀ x ∈ w, 0 ≤ x) (lo : ℚ) (h : ∀ x ∈ d, lo ≤ x) :
    lo * w.sum ≤ dot d w := by
  induction d generalizing w with
  | nil => cases w <;> simp_all [dot]
  | cons a d ih =>
    cases w with
    | nil => simp at hl
    | cons b w =>
      simp only [List.length_cons, Nat.add_right_cancel_iff, List.mem_cons, forall_eq_or_imp] at hl hw h
      have := ih w hl hw.2 h.2
      rw [dot_cons, List.sum_cons]
      nlinarith [hw.1, h.1]

theorem dot_affine (d w : List ℚ) (hl : d.length = w.length) (p q : ℚ) :
    dot (d.map fun x => p * x + q) w = p * dot d w + q * w.sum := by
  induction d generalizing w with
  | nil => cases w <;> simp_all [dot]
  | cons a d ih =>
    cases w with
    | nil => simp at hl
    | cons b w =>
      simp only [List.length_cons, Nat.add_right_cancel_iff] at hl
      rw [List.map_cons, dot_cons, dot_cons, ih w hl, List.sum_cons]; ring

theorem dot_add (d w : List ℚ) (f g : ℚ → ℚ) (hl : d.length = w.length) :
    dot (d.map fun x => f x + g x) w = dot (d.map f) w + dot (d.map g) w := by
  induction d generalizing w with
  | nil => cases w <;> simp_all [dot]
  | cons a d ih =>
    cases w with
    | nil => simp at hl
    | cons b w =>
      simp only [List.length_cons, Nat.add_right_cancel_iff] at hl
      rw [List.map_cons, List.map_cons, List.map_cons, dot_cons, dot_cons, dot_cons, ih w hl]; ring

theorem dot_scale_weights (d w : List ℚ) (c : ℚ) : dot d (w.map (c * ·)) = c * dot d w := by
  induction d generalizing w with
  | nil => cases w <;> simp [dot]
  | cons a d ih =>
    cases w with
    | nil => simp [dot]
    | cons b w => rw [List.map_cons, dot_cons, dot_cons, ih w]; ring

theorem average_eq (d w : List ℚ) (hl : d.length = w.length) (hw : w.sum ≠ 0) :
    average d w = .ok (dot d w / w.sum) := by
  simp [average, hl, hw, dot]

theorem wmv_eq (d w : List ℚ) (hl : d.length = w.length) (hw : w.sum ≠ 0) :
    weightedMeanAndVar d w = .ok (dot d w / w.sum,
      dot (d.map fun x => (x - dot d w / w.sum) ^ 2) w / w.sum) := by
  simp [weightedMeanAndVar, average_eq _ _ hl hw,
    average_eq (d.map fun x => (x - dot d w / w.sum) ^ 2) w (by simpa using hl) hw]

/-- **C10** Weighted mean and variance (biased, the default): the mean is a convex combination of the
data, the variance is non-negative. -/
theorem weightedMeanAndVar_bounds (data weights : List ℚ) (hl : data.length = weights.length)
    (hw : ∀ w ∈ weights, 0 ≤ w) (hs : 0 < weights.sum) :
    ∃ mean var, weightedMeanAndVar data weights = .ok (mean, var) ∧ 0 ≤ var ∧
      ∀ lo hi, (∀ x ∈ data, lo ≤ x ∧ x ≤ hi) → lo ≤ mean ∧ mean ≤ hi := by
  refine ⟨_, _, wmv_eq data weights hl hs.ne', ?_, ?_⟩
  · apply div_nonneg _ hs.le
    have := le_dot (data.map fun x => (x - dot data weights / weights.sum) ^ 2) weights (by simpa using hl) hw 0
      (by intro x hx; obtain ⟨y, _, rfl⟩ := List.mem_map.1 hx; positivity)
    simpa using this
  · intro lo hi h
    rw [le_div_iff₀ hs, div_le_iff₀ hs]
    exact ⟨le_dot data weights hl hw lo fun x hx => (h x hx).1, dot_le data weights hl hw hi fun x hx => (h x hx).2⟩

/-- **C10** The variance is the mean of the squares minus the square of the mean. -/
theorem weightedMeanAndVar_formula (data weights : List ℚ) (hl : data.length = weights.length) (hs : weights.sum ≠ 0) :
    ∃ mean var meanSq, weightedMeanAndVar data weights = .ok (mean, var) ∧
      average (data.map (· ^ 2)) weights = .ok meanSq ∧ average data weights = .ok mean ∧ var = meanSq - mean ^ 2 := by
  refine ⟨_, _, _, wmv_eq data weights hl hs, average_eq _ _ (by simpa using hl) hs, average_eq _ _ hl hs, ?_⟩
  set m := dot data weights / weights.sum with hm
  have h1 : dot (data.map fun x => (x - m) ^ 2) weights =
      dot (data.map (· ^ 2)) weights + (-(2 * m) * dot data weights + m ^ 2 * weights.sum) := by
    rw [← dot_affine data weights hl, ← dot_add data weights _ _ hl]
    congr 1
    apply List.map_congr_left
    intro x _; ring
  rw [h1]
  have hd : dot data weights = m * weights.sum := by rw [hm]; field_simp
  rw [hd]; field_simp; ring

/-- **C10** Rescaling the weights changes nothing; shifting the data shifts the mean only. -/
theorem weightedMeanAndVar_invariance (data weights : List ℚ) (hl : data.length = weights.length) (hs : weights.sum ≠ 0)
    (c : ℚ) (hc : c ≠ 0) (t : ℚ) :
    weightedMeanAndVar data (weights.map (c * ·)) = weightedMeanAndVar data weights ∧
    ∃ mean var, weightedMeanAndVar data weights = .ok (mean, var) ∧
      weightedMeanAndVar (data.map (· + t)) weights = .ok (mean + t, var) := by
  have hsum : (weights.map (c * ·)).sum = c * weights.sum := by
    rw [List.sum_map_mul_left]; simp
  have hs' : (weights.map (c * ·)).sum ≠ 0 := by rw [hsum]; exact mul_ne_zero hc hs
  refine ⟨?_, _, _, wmv_eq data weights hl hs, ?_⟩
  · rw [wmv_eq _ _ (by simpa using hl) hs', wmv_eq _ _ hl hs]
    simp only [dot_scale_weights, hsum, mul_div_mul_left _ _ hc]
  · rw [wmv_eq _ _ (by simpa using hl) hs]
    have h1 : dot (data.map (· + t)) weights = dot data weights + t * weights.sum := by
      have := dot_affine data weights hl 1 t
      simpa using this
    have h2 : (dot data weights + t * weights.sum) / weights.sum = dot data weights / weights.sum + t := by field_simp
    rw [h1, h2, List.map_map]
    have : (fun x => (x - (dot data weights / weights.sum + t)) ^ 2) ∘ (· + t) =
        fun x => (x - dot data weights / weights.sum) ^ 2 := by
      funext x; simp
    rw [this]

example : findNearest [1, 5, 3] 4 = .ok 5 := by decide +kernel
example : weightedMeanAndVar [1, 3] [1, 3] = .ok (5 / 2, 3 / 4) := by decide +kernel

/-- **C48** `overflow_protection` is the minimum, with a warning exactly when it clips. -/
theorem overflowProtection_spec (value upper : ℚ) :
    (overflowProtection value upper).1 = min value upper ∧
    ((overflowProtection value upper).2 = true ↔ upper < value) := by
  unfold overflowProtection
  split
  · rename_i h; exact ⟨(min_eq_right h.le).symm, by simpa using h⟩
  · rename_i h; exact ⟨(min_eq_left (not_lt.1 h)).symm, by simpa using h⟩

/-- `define_window`: the window contains the position of the largest excursion from the mean, lies in
the waveform and is at most `2 * window_size` wide. -/
theorem defineWindow_spec (wf : List ℚ) (hne : wf ≠ []) (size : Nat) (hsize : 0 < size) :
    ∃ lo hi p, defineWindow wf size = .ok (lo, hi) ∧ lo ≤ p ∧ p < hi ∧ hi ≤ wf.length ∧ hi - lo ≤ 2 * size ∧
      ∃ x, wf[p]? = some x ∧ ∀ y ∈ wf, |y - wf.sum / wf.length| ≤ |x - wf.sum / wf.length| := by
  obtain ⟨p, hp⟩ := argmax_ok (xs := wf.map fun x => |x - wf.sum / wf.length|) (by simpa using hne)
  obtain ⟨m, h1, h2, _⟩ := argmax_spec hp
  simp only [List.getElem?_map, Option.map_eq_some_iff] at h1
  obtain ⟨x, hx, rfl⟩ := h1
  have hlt : p < wf.length := (List.getElem?_eq_some_iff.1 hx).1
  refine ⟨_, _, p, by simp [defineWindow, hp]; exact ⟨rfl, rfl⟩, ?_, ?_, ?_, ?_, x, hx, ?_⟩
  · omega
  · omega
  · exact Nat.min_le_left _ _
  · omega
  · intro y hy; exact h2 _ (List.mem_map.2 ⟨y, hy, rfl⟩)

example : defineWindow [0, 0, 9, 0, 0] 1 = .ok (1, 3) := by decide +kernel

end Verif.Core
