import Verif.Props.Sampling
import Verif.Props.Hits
import Mathlib.Tactic.LinearCombination
/-!
# C44: padded distributions, sums of several samples and the expected dark noise
-/
namespace Verif.Sampling

/-! ### Padding -/

theorem roundEven_int (k : Int) : roundEven (k : ℚ) = k := by
  unfold roundEven
  rw [Int.floor_intCast, if_pos (by norm_num)]

theorem round5_id {x : ℚ} (h : FiveDecimals x) : round5 x = x := by
  obtain ⟨k, rfl⟩ := h
  unfold round5
  rw [show (k : ℚ) / 100000 * 100000 = (k : ℚ) by ring, roundEven_int]

theorem FiveDecimals.add {x y : ℚ} (hx : FiveDecimals x) (hy : FiveDecimals y) : FiveDecimals (x + y) := by
  obtain ⟨a, rfl⟩ := hx; obtain ⟨b, rfl⟩ := hy
  exact ⟨a + b, by push_cast; ring⟩

theorem FiveDecimals.intMul {x : ℚ} (hx : FiveDecimals x) (n : Int) : FiveDecimals (n * x) := by
  obtain ⟨a, rfl⟩ := hx
  exact ⟨n * a, by push_cast; ring⟩

theorem leftRamp_arith (b0 w : ℚ) (p : Nat) : leftRamp (b0 - p * w) b0 p = arith (b0 - p * w) w p := by
  unfold leftRamp arith
  apply List.map_congr_left
  intro k hk
  have hp : (p : ℚ) ≠ 0 := by
    have := List.mem_range.1 hk
    exact_mod_cast (by omega : p ≠ 0)
  rw [show b0 - (b0 - (p : ℚ) * w) = p * w by ring, mul_div_assoc, mul_div_cancel₀ _ hp] <;> ring

theorem rightRamp_arith (z w : ℚ) (q : Nat) : rightRamp (z + q * w) z q = arith (z + w) w q := by
  unfold rightRamp leftRamp arith
  apply List.ext_getElem?
  intro j
  by_cases hj : j < q
  · have hq : (q : ℚ) ≠ 0 := by exact_mod_cast (by omega : q ≠ 0)
    rw [List.getElem?_reverse (by simpa using hj)]
    simp only [List.getElem?_map, List.length_map, List.length_range]
    rw [List.getElem?_range (by omega), List.getElem?_range hj]
    simp only [Option.map_some, Option.some.injEq]
    have : ((q - 1 - j : Nat) : ℚ) = q - 1 - j := by
      rw [Nat.sub_sub, Nat.cast_sub (by omega)]; push_cast; ring
    rw [this, show z - (z + (q : ℚ) * w) = q * (-w) by ring, mul_div_assoc]
    field_simp
    ring
  · rw [List.getElem?_eq_none (by simpa using hj), List.getElem?_eq_none (by simpa using hj)]

theorem arith_append (x0 w : ℚ) (m n : Nat) : arith x0 w m ++ arith (x0 + m * w) w n = arith x0 w (m + n) := by
  unfold arith
  rw [List.range_add, List.map_append, List.map_map]
  congr 1
  apply List.map_congr_left
  intro k _
  simp only [Function.comp]
  push_cast; ring

theorem arith_get (x0 w : ℚ) (n k : Nat) (h : k < n) : (arith x0 w n)[k]? = some (x0 + k * w) := by
  simp [arith, List.getElem?_range h]

theorem arith_getLast (x0 w : ℚ) (n : Nat) : (arith x0 w (n + 1)).getLast? = some (x0 + n * w) := by
  rw [List.getLast?_eq_getElem?, show (arith x0 w (n + 1)).length - 1 = n by simp [arith], arith_get _ _ _ _ (by omega)]

/-- `abs(end - edge) // width` leaves less than one bin. -/
theorem padCount_spec (t e w : ℚ) (hw : 0 < w) : (padCount t e w : ℚ) * w ≤ |t - e| ∧ |t - e| < (padCount t e w + 1) * w := by
  have h0 : (0 : Int) ≤ ⌊|t - e| / w⌋ := Int.floor_nonneg.2 (div_nonneg (abs_nonneg _) hw.le)
  have hc : (padCount t e w : ℚ) = ((⌊|t - e| / w⌋ : Int) : ℚ) := by
    unfold padCount
    have : ((⌊|t - e| / w⌋.toNat : Int)) = ⌊|t - e| / w⌋ := Int.toNat_of_nonneg h0
    exact_mod_cast congrArg (fun z : Int => (z : ℚ)) this
  rw [hc]
  constructor
  · exact (le_div_iff₀ hw).1 (Int.floor_le _)
  · exact (div_lt_iff₀ hw).1 (Int.lt_floor_add_one _)

/-- **C44** `pad_pdfs` on evenly spaced bins (origin and width with at most five decimals) inside `[-100, 100]`: the bins continue with the same spacing
as far as they fit in `[-100, 100]`, every row keeps its values at its bins and is zero at the new ones. -/
theorem pad_pdfs_spec (b0 w : ℚ) (n : Nat) (rows : List (List ℚ)) (hw : 0 < w) (hd : FiveDecimals w) (hb : FiveDecimals b0)
    (hlo : -100 ≤ b0) (hhi : b0 + (n + 1 : Nat) * w ≤ 100) :
    ∃ p q : Nat, padPdfs (arith b0 w (n + 2)) rows = .ok (arith (b0 - p * w) w (p + (n + 2) + q), rows.map (padRow p q)) ∧
      -100 ≤ b0 - p * w ∧ b0 - p * w < -100 + w ∧
      b0 - p * w + ((p + (n + 2) + q - 1 : Nat) : ℚ) * w ≤ 100 ∧ 100 - w < b0 - p * w + ((p + (n + 2) + q - 1 : Nat) : ℚ) * w := by
  have h0 : (arith b0 w (n + 2))[0]? = some b0 := by rw [arith_get _ _ _ _ (by omega)]; simp
  have h1 : (arith b0 w (n + 2))[1]? = some (b0 + w) := by rw [arith_get _ _ _ _ (by omega)]; simp
  have hz : (arith b0 w (n + 2)).getLast? = some (b0 + (n + 1 : Nat) * w) := arith_getLast b0 w (n + 1)
  have hwid : round5 (b0 + w - b0) = w := by rw [add_sub_cancel_left, round5_id hd]
  refine ⟨padCount (-100) b0 w, padCount 100 (b0 + (n + 1 : Nat) * w) w, ?_, ?_⟩
  · unfold padPdfs padding
    simp only [h0, h1, hz, hwid]
    congr 2
    unfold padBins
    have hh : (arith b0 w (n + 2)).headD 0 = b0 := by rw [List.headD_eq_head?_getD, List.head?_eq_getElem?, h0]; rfl
    have hl : (arith b0 w (n + 2)).getLastD 0 = b0 + (n + 1 : Nat) * w := by rw [List.getLastD_eq_getLast?, hz]; rfl
    rw [hh, hl]
    generalize padCount (-100) b0 w = p
    generalize padCount 100 (b0 + (n + 1 : Nat) * w) w = q
    have r1 : round5 (b0 - p * w) = b0 - p * w := by
      apply round5_id
      have := hb.add (hd.intMul (-(p : Int)))
      convert this using 1; push_cast; ring
    have r2 : round5 (b0 + (n + 1 : Nat) * w + q * w) = b0 + (n + 1 : Nat) * w + q * w := by
      apply round5_id
      have := hb.add (hd.intMul ((n + 1 : Nat) + q : Int))
      convert this using 1; push_cast; ring
    rw [r1, r2, leftRamp_arith, rightRamp_arith]
    have e1 := arith_append (b0 - p * w) w p (n + 2)
    rw [show b0 - (p : ℚ) * w + p * w = b0 by ring] at e1
    rw [e1]
    have e2 := arith_append (b0 - p * w) w (p + (n + 2)) q
    rw [show b0 - (p : ℚ) * w + ((p + (n + 2) : Nat) : ℚ) * w = b0 + (n + 1 : Nat) * w + w by push_cast; ring] at e2
    exact e2
  · obtain ⟨p1, p2⟩ := padCount_spec (-100) b0 w hw
    obtain ⟨q1, q2⟩ := padCount_spec 100 (b0 + (n + 1 : Nat) * w) w hw
    rw [abs_of_nonpos (by linarith)] at p1 p2
    rw [abs_of_nonneg (by linarith)] at q1 q2
    have hc : ∀ p q : Nat, b0 - (p : ℚ) * w + ((p + (n + 2) + q - 1 : Nat) : ℚ) * w = b0 + (n + 1 : Nat) * w + q * w := by
      intro p q
      rw [show p + (n + 2) + q - 1 = p + (n + 1) + q by omega]
      push_cast; ring
    rw [hc]
    refine ⟨by linarith, by linarith, by linarith, by linarith⟩

/-- **C44** A padded row: `p` zeros, the row, `q` zeros; the same total. -/
theorem padRow_spec (p q : Nat) (row : List ℚ) :
    (padRow p q row).length = p + row.length + q ∧ (padRow p q row).sum = row.sum ∧
    (∀ i < row.length, (padRow p q row).getD (p + i) 0 = row.getD i 0) ∧
    (∀ i : Nat, i < p ∨ p + row.length ≤ i → (padRow p q row).getD i 0 = 0) := by
  refine ⟨by simp [padRow]; omega, by simp [padRow], ?_, ?_⟩
  · intro i hi
    simp only [padRow, List.getD_eq_getElem?_getD]
    rw [List.append_assoc, List.getElem?_append_right (by simp), List.length_replicate, Nat.add_sub_cancel_left, List.getElem?_append_left hi]
  · intro i hi
    simp only [padRow, List.getD_eq_getElem?_getD, List.append_assoc]
    rcases hi with hi | hi
    · rw [List.getElem?_append_left (by simpa using hi), List.getElem?_replicate, if_pos hi]; rfl
    · rw [List.getElem?_append_right (by simp; omega), List.length_replicate, List.getElem?_append_right (by omega), List.getElem?_replicate]
      split <;> rfl

example : padPdfs (arith (-50) 25 3) [[1/4, 1/2, 1/4]] = .ok ([-100, -75, -50, -25, 0, 25, 50, 75, 100], [[0, 0, 1/4, 1/2, 1/4, 0, 0, 0, 0]]) ∧
    FiveDecimals 25 ∧ FiveDecimals (-50) ∧ (-100 : ℚ) ≤ -50 ∧ (-50 : ℚ) + (1 + 1 : Nat) * 25 ≤ 100 :=
  ⟨by decide +kernel, ⟨2500000, by norm_num⟩, ⟨-5000000, by norm_num⟩, by norm_num, by norm_num⟩

/-! ### The sum of several samples -/

theorem sum_ite_eq_range (n k : Nat) (f : Nat → ℚ) : ((List.range n).map fun j : Nat => if j = k then f j else 0).sum = if k < n then f k else 0 := by
  induction n with
  | zero => simp
  | succ n ih =>
    rw [List.range_succ, List.map_append, List.sum_append, ih]
    simp only [List.map_cons, List.map_nil, List.sum_cons, List.sum_nil, add_zero]
    by_cases h : n = k
    · subst h; simp
    · rw [if_neg h, add_zero]
      by_cases h2 : k < n
      · rw [if_pos h2, if_pos (by omega)]
      · rw [if_neg h2, if_neg (by omega)]

theorem convAt_eq (a b : List ℚ) (k : Nat) : convAt a b k = pairMass a b fun i j => decide (i + j = k) := by
  unfold convAt pairMass
  congr 1
  apply List.map_congr_left
  intro i _
  by_cases h : i ≤ k
  · rw [if_pos h]
    have : ∀ j : Nat, (if decide (i + j = k) = true then a.getD i 0 * b.getD j 0 else 0) = if j = k - i then a.getD i 0 * b.getD j 0 else 0 := by
      intro j
      by_cases hj : j = k - i
      · rw [if_pos hj, if_pos (by simpa using (by omega : i + j = k))]
      · rw [if_neg hj, if_neg (by simpa using (by omega : i + j ≠ k))]
    simp only [this]
    rw [sum_ite_eq_range b.length (k - i) fun j => a.getD i 0 * b.getD j 0]
    split
    · rfl
    · rename_i hlt
      rw [List.getD_eq_default b _ (not_lt.1 hlt), mul_zero]
  · rw [if_neg h]
    symm
    apply List.sum_eq_zero
    intro x hx
    obtain ⟨j, _, rfl⟩ := List.mem_map.1 hx
    rw [if_neg (by simpa using (by omega : i + j ≠ k))]

/-- **C44** Adding one more sample: the probability of a bin is that of the pairs of bins whose positions add up to it, counted from the middle bin. -/
theorem conv_spec (a b : List ℚ) : (convSame a b).length = a.length ∧
    ∀ k < a.length, (convSame a b)[k]? = some (pairMass a b fun i j => decide (i + j = k + (b.length - 1) / 2)) := by
  refine ⟨by simp [convSame], fun k hk => ?_⟩
  simp [convSame, List.getElem?_range hk, convAt_eq]

theorem sum_getD (a : List ℚ) : ((List.range a.length).map fun i : Nat => a.getD i 0).sum = a.sum := by
  congr 1
  apply List.ext_getElem?
  intro i
  by_cases h : i < a.length
  · simp [List.getElem?_range h, List.getElem?_eq_getElem h]
  · simp [List.getElem?_eq_none (not_lt.1 h), h]

theorem pairMass_all (a b : List ℚ) : (pairMass a b fun _ _ => true) = a.sum * b.sum := by
  unfold pairMass
  simp only [if_true, List.sum_map_mul_left, sum_getD, List.sum_map_mul_right]

theorem NonNeg.getD {a : List ℚ} (h : NonNeg a) (i : Nat) : 0 ≤ a.getD i 0 := by
  rw [List.getD_eq_getElem?_getD]
  cases hi : a[i]? with
  | none => exact le_rfl
  | some x => exact h x (List.mem_of_getElem? hi)

theorem pairMass_mono {a b : List ℚ} (ha : NonNeg a) (hb : NonNeg b) {c d : Nat → Nat → Bool} (h : ∀ i j, c i j = true → d i j = true) : pairMass a b c ≤ pairMass a b d := by
  unfold pairMass
  apply List.sum_le_sum
  intro i _
  apply List.sum_le_sum
  intro j _
  by_cases hc : c i j = true
  · rw [if_pos hc, if_pos (h i j hc)]
  · rw [if_neg hc]
    split
    · exact mul_nonneg (ha.getD i) (hb.getD j)
    · exact le_rfl

theorem pairMass_nonneg {a b : List ℚ} (ha : NonNeg a) (hb : NonNeg b) (c : Nat → Nat → Bool) : 0 ≤ pairMass a b c := by
  have := pairMass_mono ha hb (c := fun _ _ => false) (d := c) (fun _ _ h => by cases h)
  refine le_trans (le_of_eq ?_) this
  unfold pairMass; simp

theorem pairMass_sum (a b : List ℚ) (n : Nat) (c : Nat → Nat → Nat → Bool) :
    ((List.range n).map fun k : Nat => pairMass a b (c k)).sum =
      ((List.range a.length).map fun i : Nat => ((List.range b.length).map fun j : Nat =>
        ((List.range n).map fun k : Nat => if c k i j then a.getD i 0 * b.getD j 0 else 0).sum).sum).sum := by
  unfold pairMass
  rw [Hits.sum_comm]
  congr 1
  apply List.map_congr_left
  intro i _
  rw [Hits.sum_comm]

/-- **C44** Nothing but what falls beyond the range is lost by adding one more sample: the total is the probability of the pairs whose sum is in the range, at most the product of the totals. -/
theorem conv_total (a b : List ℚ) :
    (convSame a b).sum = (pairMass a b fun i j => decide ((b.length - 1) / 2 ≤ i + j ∧ i + j < (b.length - 1) / 2 + a.length)) ∧
    (NonNeg a → NonNeg b → NonNeg (convSame a b) ∧ (convSame a b).sum ≤ a.sum * b.sum) := by
  have htot : (convSame a b).sum = pairMass a b fun i j => decide ((b.length - 1) / 2 ≤ i + j ∧ i + j < (b.length - 1) / 2 + a.length) := by
    unfold convSame
    simp only [convAt_eq]
    rw [pairMass_sum]
    unfold pairMass
    congr 1
    apply List.map_congr_left
    intro i _
    congr 1
    apply List.map_congr_left
    intro j _
    have : ∀ k : Nat, (if decide (i + j = k + (b.length - 1) / 2) = true then a.getD i 0 * b.getD j 0 else 0) =
        if k = i + j - (b.length - 1) / 2 then (if (b.length - 1) / 2 ≤ i + j then a.getD i 0 * b.getD j 0 else 0) else 0 := by
      intro k
      by_cases h1 : i + j = k + (b.length - 1) / 2
      · rw [if_pos (by simpa using h1), if_pos (by omega), if_pos (by omega)]
      · rw [if_neg (by simpa using h1)]
        by_cases h2 : k = i + j - (b.length - 1) / 2
        · rw [if_pos h2, if_neg (by omega)]
        · rw [if_neg h2]
    simp only [this]
    rw [sum_ite_eq_range a.length (i + j - (b.length - 1) / 2) fun _ => if (b.length - 1) / 2 ≤ i + j then a.getD i 0 * b.getD j 0 else 0]
    by_cases h1 : (b.length - 1) / 2 ≤ i + j
    · by_cases h2 : i + j < (b.length - 1) / 2 + a.length
      · rw [if_pos (by omega), if_pos h1, if_pos (by simpa using ⟨h1, h2⟩)]
      · rw [if_neg (by omega), if_neg (by simp only [decide_eq_true_eq]; tauto)]
    · rw [if_neg h1, ite_self, if_neg (by simp only [decide_eq_true_eq]; tauto)]
  refine ⟨htot, fun ha hb => ⟨?_, ?_⟩⟩
  · intro x hx
    obtain ⟨k, _, rfl⟩ := List.mem_map.1 hx
    simp only [convAt_eq]
    exact pairMass_nonneg ha hb _
  · rw [htot, ← pairMass_all]
    exact pairMass_mono ha hb fun _ _ _ => rfl

/-- **C44** On bins symmetric around zero (`2 m + 1` bins `-m w, ..., m w`), the bin of `x` receives exactly the pairs of bins whose values add up to `x`. -/
theorem conv_symmetric (m : Nat) (w : ℚ) (hw : w ≠ 0) (a b : List ℚ) (ha : a.length = 2 * m + 1) (hb : b.length = 2 * m + 1) (k : Nat) (hk : k < 2 * m + 1) :
    (convSame a b)[k]? = some (pairMass a b fun i j =>
      decide ((arith (-(m * w)) w (2 * m + 1)).getD i 0 + (arith (-(m * w)) w (2 * m + 1)).getD j 0 = (arith (-(m * w)) w (2 * m + 1)).getD k 0)) := by
  rw [(conv_spec a b).2 k (by omega)]
  unfold pairMass
  congr 2
  apply List.map_congr_left
  intro i hi
  congr 1
  apply List.map_congr_left
  intro j hj
  have hi' := List.mem_range.1 hi
  have hj' := List.mem_range.1 hj
  have hg : ∀ i < 2 * m + 1, (arith (-(m * w)) w (2 * m + 1)).getD i 0 = -(m * w) + i * w := by
    intro i hi
    rw [List.getD_eq_getElem?_getD, arith_get _ _ _ _ hi]; rfl
  beta_reduce
  rw [hg i (by omega), hg j (by omega), hg k hk, show (b.length - 1) / 2 = m by omega]
  have : (i + j = k + m) ↔ (-(m * w) + i * w + (-(m * w) + j * w) = -(m * w) + k * w) := by
    constructor
    · intro h
      have : (i : ℚ) + j = k + m := by exact_mod_cast h
      linear_combination w * this
    · intro h
      have h2 : ((i : ℚ) + j - (k + m)) * w = 0 := by linear_combination h
      rcases mul_eq_zero.1 h2 with h3 | h3
      · have h4 : (i : ℚ) + j = k + m := by linarith
        exact_mod_cast h4
      · exact absurd h3 hw
  rw [decide_eq_decide.2 this]

example : convSame [1/4, 1/2, 1/4] [1/4, 1/2, 1/4] = [1/4, 3/8, 1/4] ∧ (convSame [1/4, 1/2, 1/4] [1/4, 1/2, 1/4]).sum = 7/8 := by
  exact ⟨by decide +kernel, by decide +kernel⟩

/-! ### Expected dark noise -/

theorem mapM_error {α β : Type} {f : α → Except PyErr β} {xs : List α} {e : PyErr} (h : xs.mapM f = .error e) : ∃ x ∈ xs, f x = .error e := by
  induction xs with
  | nil => cases h
  | cons a as ih =>
    rw [List.mapM_cons] at h
    cases ha : f a with
    | error e' =>
      rw [ha] at h
      cases h
      exact ⟨a, List.mem_cons_self, ha⟩
    | ok b =>
      rw [ha] at h
      cases has : as.mapM f with
      | error e' =>
        rw [has] at h
        cases h
        obtain ⟨x, hx, hxe⟩ := ih has
        exact ⟨x, List.mem_cons_of_mem _ hx, hxe⟩
      | ok bs => rw [has] at h; cases h

theorem multiRows_inv (rows : List (List ℚ)) (n : Nat) (h : ∀ r ∈ rows, r.length = n ∧ NonNeg r) : ∀ width : Nat,
    (multiRows rows width).length = rows.length ∧ ∀ r ∈ multiRows rows width, r.length = n ∧ NonNeg r
  | 0 => ⟨rfl, h⟩
  | m + 1 => by
    obtain ⟨h1, h2⟩ := multiRows_inv rows n h m
    refine ⟨by simp [multiRows, h1], fun r hr => ?_⟩
    obtain ⟨k, hk⟩ := List.mem_iff_getElem?.1 hr
    obtain ⟨a, b, ha, hb, rfl⟩ := List.getElem?_zipWith_eq_some.1 hk
    obtain ⟨a1, a2⟩ := h a (List.mem_of_getElem? ha)
    obtain ⟨_, b2⟩ := h2 b (List.mem_of_getElem? hb)
    exact ⟨by rw [(conv_spec a b).1, a1], ((conv_total a b).2 a2 b2).1⟩

/-- **C44** The distributions of the sum of `width + 1` samples: each sensor's own, one more sample at a time. -/
theorem multi_step (rows : List (List ℚ)) (width k : Nat) (a b : List ℚ) (ha : rows[k]? = some a) (hb : (multiRows rows width)[k]? = some b) :
    (multiRows rows (width + 1))[k]? = some (convSame a b) := List.getElem?_zipWith_eq_some.2 ⟨a, b, ha, hb, rfl⟩

theorem padPdfs_rows (bins pb : List ℚ) (rows pr : List (List ℚ)) (h : padPdfs bins rows = .ok (pb, pr)) :
    ∃ p q, pr = rows.map (padRow p q) ∧ pb.length = p + bins.length + q := by
  unfold padPdfs at h
  cases hp : padding bins with
  | error e => rw [hp] at h; cases h
  | ok x =>
    obtain ⟨w, p, q⟩ := x
    rw [hp] at h
    cases h
    refine ⟨p, q, rfl, ?_⟩
    simp [padBins, leftRamp, rightRamp]; omega

theorem padded_inv (bins pb : List ℚ) (rows pr : List (List ℚ)) (h : padPdfs bins rows = .ok (pb, pr)) (hrow : ∀ r ∈ rows, r.length = bins.length ∧ NonNeg r) :
    pr.length = rows.length ∧ ∀ r ∈ pr, r.length = pb.length ∧ NonNeg r := by
  obtain ⟨p, q, rfl, hl⟩ := padPdfs_rows bins pb rows pr h
  refine ⟨by simp, fun r hr => ?_⟩
  obtain ⟨r0, hr0, rfl⟩ := List.mem_map.1 hr
  obtain ⟨h1, h2⟩ := hrow r0 hr0
  refine ⟨by rw [(padRow_spec p q r0).1, h1, hl], fun x hx => ?_⟩
  simp only [padRow, List.mem_append, List.mem_replicate] at hx
  rcases hx with (⟨_, rfl⟩ | hx) | ⟨_, rfl⟩
  · exact le_rfl
  · exact h2 x hx
  · exact le_rfl

/-- **C44** The dark level of the threshold model never fails: zero for masked sensors; for an active one, infinite exactly when its distribution is zero,
otherwise the 99 % quantile of its distribution of the sum of the samples. -/
theorem dark_threshold (s : Sampler) (width : Nat) (bins : List ℚ) (rows : List (List ℚ)) (hpad : padPdfs s.xbins s.probs = .ok (bins, rows))
    (hl : s.active.length = s.probs.length) (hrow : ∀ r ∈ s.probs, r.length = s.xbins.length ∧ NonNeg r) (ha : ∀ a ∈ s.active, 0 ≤ a) :
    ∃ dark, darkExpectation s width .threshold = .ok dark ∧ dark.length = s.probs.length ∧
      ∀ (k : Nat) (a : ℚ) (row : List ℚ) (t : Option ℚ), s.active[k]? = some a → (multiRows rows width)[k]? = some row → dark[k]? = some t →
        (a = 0 → t = some 0) ∧
        (a ≠ 0 → (t = none ↔ ∀ v ∈ row, v = 0) ∧ ∀ v, t = some v → ∃ i, IsQuantile (normalize (row.map (· * a))) (99 / 100) i ∧ bins[i]? = some v) := by
  obtain ⟨pl, pinv⟩ := padded_inv _ _ _ _ hpad hrow
  obtain ⟨ml, minv⟩ := multiRows_inv rows bins.length pinv width
  obtain ⟨thr, h1, h2, h3⟩ := compute_thresholds (multiRows rows width) bins s.baselines s.active s.adcToPes (99 / 100) 1 (by rw [hl, ml, pl]) minv ha (by norm_num)
  unfold computeThresholds at h1
  unfold darkExpectation
  rw [hpad]
  simp only [Sampler.new] at h1
  cases hg : generalThresholds bins ((maskRows s.active (multiRows rows width)).map normalize) (99 / 100) with
  | error e => rw [hg] at h1; cases h1
  | ok l =>
    rw [hg] at h1
    have hid : l.map (Option.map (· * (1 : ℚ))) = l := by
      conv_rhs => rw [← List.map_id l]
      apply List.map_congr_left
      intro o _; cases o <;> simp
    simp only [Except.ok.injEq, hid] at h1
    subst h1
    simp only [hg]
    refine ⟨zeroMasked s.active l, rfl, by simp [zeroMasked, h2, ml, pl, hl], fun k a row t hka hkr hkt => ?_⟩
    obtain ⟨a', t', ha', ht', rfl⟩ := List.getElem?_zipWith_eq_some.1 hkt
    rw [hka] at ha'; cases ha'
    obtain ⟨g1, g2⟩ := h3 k row a t' hkr hka ht'
    refine ⟨fun h0 => if_pos h0, fun h0 => ?_⟩
    rw [if_neg h0]
    refine ⟨by rw [g1]; tauto, fun v hv => ?_⟩
    obtain ⟨i, x, hq, hx, rfl⟩ := g2 v hv
    exact ⟨i, hq, by rw [hx, mul_one]⟩

/-- **C44** The dark level of the mean model: zero for masked sensors, the mean of the distribution for active ones; `ZeroDivisionError` exactly when the distribution of an active sensor is zero. -/
theorem dark_mean (s : Sampler) (width : Nat) (bins : List ℚ) (rows : List (List ℚ)) (hpad : padPdfs s.xbins s.probs = .ok (bins, rows))
    (hl : s.active.length = s.probs.length) (hrow : ∀ r ∈ s.probs, r.length = s.xbins.length ∧ NonNeg r) :
    (∀ dark, darkExpectation s width .mean = .ok dark → dark.length = s.probs.length ∧
      ∀ (k : Nat) (a : ℚ) (row : List ℚ), s.active[k]? = some a → (multiRows rows width)[k]? = some row →
        (a = 0 → dark[k]? = some (some 0)) ∧ (a ≠ 0 → ∃ m, dark[k]? = some (some m) ∧ m * row.sum = (List.zipWith (· * ·) bins row).sum)) ∧
    (∀ e, darkExpectation s width .mean = .error e ↔ e = .zeroDivision ∧
      ∃ (k : Nat) (a : ℚ) (row : List ℚ), s.active[k]? = some a ∧ a ≠ 0 ∧ (multiRows rows width)[k]? = some row ∧ ∀ v ∈ row, v = 0) := by
  obtain ⟨pl, pinv⟩ := padded_inv _ _ _ _ hpad hrow
  obtain ⟨ml, minv⟩ := multiRows_inv rows bins.length pinv width
  have hdef : darkExpectation s width .mean = (s.active.zip (multiRows rows width)).mapM (meanOf bins) := by
    unfold darkExpectation; rw [hpad]
  rw [hdef]
  have hmean : ∀ (a : ℚ) (row : List ℚ), row ∈ multiRows rows width →
      (a = 0 → meanOf bins (a, row) = .ok (some 0)) ∧
      (a ≠ 0 → (∀ v ∈ row, v = 0) → meanOf bins (a, row) = .error .zeroDivision) ∧
      (a ≠ 0 → (¬ ∀ v ∈ row, v = 0) → ∃ m, meanOf bins (a, row) = .ok (some m) ∧ m * row.sum = (List.zipWith (· * ·) bins row).sum) := by
    intro a row hr
    obtain ⟨r1, r2⟩ := minv row hr
    refine ⟨fun h0 => by simp [meanOf, h0], fun h0 hz => ?_, fun h0 hz => ?_⟩
    · have hs : row.sum = 0 := List.sum_eq_zero hz
      simp [meanOf, h0, Core.average, r1, hs]
    · have hs : row.sum ≠ 0 := fun h => hz (sum_zero_of_nonneg r2 h)
      refine ⟨(List.zipWith (· * ·) bins row).sum / row.sum, by simp [meanOf, h0, Core.average, r1, hs], div_mul_cancel₀ _ hs⟩
  have hzl : (s.active.zip (multiRows rows width)).length = s.probs.length := by simp [hl, ml, pl]
  constructor
  · intro dark hd
    have hf := mapM_ok_iff.1 hd
    refine ⟨by rw [← hf.length_eq, hzl], fun k a row hka hkr => ?_⟩
    have hk : k < s.probs.length := by rw [← hl]; exact (List.getElem?_eq_some_iff.1 hka).1
    have hkd : k < dark.length := by rw [← hf.length_eq, hzl]; exact hk
    have hR := forall₂_getElem? hf k (a, row) dark[k] (List.getElem?_zip_eq_some.2 ⟨hka, hkr⟩) (List.getElem?_eq_getElem hkd)
    rw [List.getElem?_eq_getElem hkd]
    obtain ⟨m1, m2, m3⟩ := hmean a row (List.mem_of_getElem? hkr)
    refine ⟨fun h0 => ?_, fun h0 => ?_⟩
    · rw [m1 h0] at hR; rw [Except.ok.inj hR]
    · by_cases hz : ∀ v ∈ row, v = 0
      · rw [m2 h0 hz] at hR; cases hR
      · obtain ⟨m, hm, hm'⟩ := m3 h0 hz
        rw [hm] at hR
        exact ⟨m, by rw [Except.ok.inj hR], hm'⟩
  · intro e
    constructor
    · intro he
      obtain ⟨x, hx, hxe⟩ := mapM_error he
      obtain ⟨k, hk⟩ := List.mem_iff_getElem?.1 hx
      obtain ⟨a, row⟩ := x
      obtain ⟨hka, hkr⟩ := List.getElem?_zip_eq_some.1 hk
      obtain ⟨m1, m2, m3⟩ := hmean a row (List.mem_of_getElem? hkr)
      by_cases h0 : a = 0
      · rw [m1 h0] at hxe; cases hxe
      · by_cases hz : ∀ v ∈ row, v = 0
        · rw [m2 h0 hz] at hxe
          exact ⟨(Except.error.inj hxe).symm, k, a, row, hka, h0, hkr, hz⟩
        · obtain ⟨m, hm, _⟩ := m3 h0 hz
          rw [hm] at hxe; cases hxe
    · rintro ⟨rfl, k, a, row, hka, h0, hkr, hz⟩
      cases hd : (s.active.zip (multiRows rows width)).mapM (meanOf bins) with
      | ok dark =>
        have hf := mapM_ok_iff.1 hd
        have hk : k < s.probs.length := by rw [← hl]; exact (List.getElem?_eq_some_iff.1 hka).1
        have hkd : k < dark.length := by rw [← hf.length_eq, hzl]; exact hk
        have hR := forall₂_getElem? hf k (a, row) dark[k] (List.getElem?_zip_eq_some.2 ⟨hka, hkr⟩) (List.getElem?_eq_getElem hkd)
        rw [(hmean a row (List.mem_of_getElem? hkr)).2.1 h0 hz] at hR
        cases hR
      | error e' =>
        obtain ⟨x, hx, hxe⟩ := mapM_error hd
        obtain ⟨k', hk'⟩ := List.mem_iff_getElem?.1 hx
        obtain ⟨a', row'⟩ := x
        obtain ⟨_, hkr'⟩ := List.getElem?_zip_eq_some.1 hk'
        obtain ⟨m1, m2, m3⟩ := hmean a' row' (List.mem_of_getElem? hkr')
        by_cases h0' : a' = 0
        · rw [m1 h0'] at hxe; cases hxe
        · by_cases hz' : ∀ v ∈ row', v = 0
          · rw [m2 h0' hz'] at hxe; rw [← Except.error.inj hxe]
          · obtain ⟨m, hm, _⟩ := m3 h0' hz'
            rw [hm] at hxe; cases hxe

/-- Three sensors: an active one, a masked one and an active one without noise measurements. -/
def exDark : Sampler := Sampler.new [[1, 2, 1], [2, 2, 2], [0, 0, 0]] [-50, 0, 50] [10, 20, 0] [1, 0, 1] [2, 2, 2]

example : darkExpectation exDark 1 .threshold = .ok [some 100, some 0, none] ∧ darkExpectation exDark 1 .mean = .error .zeroDivision ∧
    darkExpectation { exDark with active := [1, 0, 0] } 1 .mean = .ok [some 0, some 0, some 0] ∧
    padPdfs exDark.xbins exDark.probs = .ok ([-100, -50, 0, 50, 100], [[0, 1/4, 1/2, 1/4, 0], [0, 0, 0, 0, 0], [0, 0, 0, 0, 0]]) ∧
    exDark.active.length = exDark.probs.length :=
  ⟨by decide +kernel, by decide +kernel, by decide +kernel, by decide +kernel, rfl⟩

end Verif.Sampling
