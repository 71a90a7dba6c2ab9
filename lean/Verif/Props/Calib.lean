import Verif.Spec.Calib
import Verif.Lemmas.Peaks
import Verif.Lemmas.Hist
import Verif.Props.Wfm
/-!
# C43, C54: integration windows and calibration of waveforms
-/
namespace Verif.Calib
open Verif.Peaks

/-! ### C43: integrals -/

theorem evens_reduceat (wf : List ℚ) : ∀ (ws : List (Nat × Nat)), (∀ w ∈ ws, w.1 < w.2) →
    evens (reduceat wf (ws.flatMap fun w => [w.1, w.2])) = ws.map fun w => chargeIn wf w.1 w.2
  | [], _ => rfl
  | [w], h => by
    have := h w List.mem_cons_self
    simp [reduceat, evens, this, chargeIn_eq]
  | w :: v :: ws, h => by
    have h1 := h w List.mem_cons_self
    have ih := evens_reduceat wf (v :: ws) (fun x hx => h x (List.mem_cons_of_mem _ hx))
    simp only [List.flatMap_cons, List.cons_append, List.nil_append] at ih ⊢
    rw [reduceat, reduceat, if_pos h1, evens, ih]
    simp [chargeIn_eq]

/-- **C43** Integrating between the limits of a list of windows gives, for each sensor and window, the sum of the samples of the
sensor in the window. -/
theorem integrate_spec (wfs : Mat) (ws : List (Nat × Nat)) (hne : ws ≠ []) (h : ∀ w ∈ ws, w.1 < w.2 ∧ w.2 < wfs.ncols) :
    integrate (limitsOf (ws.map fun w => ((w.1 : Int), (w.2 : Int)))) wfs =
      .ok (wfs.rows.map fun wf => ws.map fun w => chargeIn wf w.1 w.2) := by
  have hl : limitsOf (ws.map fun w => ((w.1 : Int), (w.2 : Int))) = (ws.flatMap fun w => [w.1, w.2]).map fun n : Nat => (n : Int) := by
    simp [limitsOf, List.flatMap_map, List.map_flatMap]
  have hm : ∀ n ∈ ws.flatMap (fun w => [w.1, w.2]), n < wfs.ncols := by
    intro n hn
    obtain ⟨w, hw, hn⟩ := List.mem_flatMap.1 hn
    have := h w hw
    rcases List.mem_cons.1 hn with rfl | hn
    · omega
    · simp at hn; omega
  rw [hl]
  have e1 : ((ws.flatMap fun w => [w.1, w.2]).map fun n : Nat => (n : Int)).isEmpty = false := by
    cases ws with
    | nil => exact absurd rfl hne
    | cons w ws => rfl
  have e2 : ((ws.flatMap fun w => [w.1, w.2]).map fun n : Nat => (n : Int)).any (fun l => decide (l < 0)) = false := by
    rw [List.any_eq_false]
    intro l hl
    obtain ⟨n, _, rfl⟩ := List.mem_map.1 hl
    simp
  have e3 : ((ws.flatMap fun w => [w.1, w.2]).map fun n : Nat => (n : Int)).any (fun l => decide ((wfs.ncols : Int) ≤ l)) = false := by
    rw [List.any_eq_false]
    intro l hl
    obtain ⟨n, hn, rfl⟩ := List.mem_map.1 hl
    have := hm n hn
    simp; omega
  have e4 : ((ws.flatMap fun w => [w.1, w.2]).map fun n : Nat => (n : Int)).map Int.toNat = ws.flatMap fun w => [w.1, w.2] := by
    rw [List.map_map]
    exact (List.map_congr_left (fun n _ => by simp)).trans (List.map_id _)
  simp only [integrate, spacedIntegrals, e1, e2, e3, e4, Bool.or_false, Bool.false_eq_true, if_false, List.map_map, Except.ok.injEq]
  apply List.map_congr_left
  intro wf _
  exact evens_reduceat wf ws (fun w hw => (h w hw).1)

example : integrate [0, 2, 3, 5] ⟨[[1, 2, 3, 4, 5, 6], [0, 0, 7, 0, 1, 1]], 6⟩ = .ok [[3, 9], [0, 1]] ∧
    limitsOf [(0, 2), (3, 5)] = [0, 2, 3, 5] := by decide +kernel

/-- **C43** Limits outside the waveform (a limit equal to its length included) are refused, and so is an empty list of limits. -/
theorem integrate_refused (wfs : Mat) (limits : List Int) :
    integrate limits wfs = .error .valueError ↔ limits = [] ∨ ∃ l ∈ limits, l < 0 ∨ (wfs.ncols : Int) ≤ l := by
  unfold integrate spacedIntegrals
  cases limits with
  | nil => simp
  | cons a as =>
    by_cases hc : ∃ l ∈ a :: as, l < 0 ∨ (wfs.ncols : Int) ≤ l
    · have : ((a :: as).any (fun l => decide (l < 0)) || (a :: as).any (fun l => decide ((wfs.ncols : Int) ≤ l))) = true := by
        obtain ⟨l, hl, h1 | h1⟩ := hc
        · rw [Bool.or_eq_true]; exact Or.inl (List.any_eq_true.2 ⟨l, hl, by simpa using h1⟩)
        · rw [Bool.or_eq_true]; exact Or.inr (List.any_eq_true.2 ⟨l, hl, by simpa using h1⟩)
      simp only [List.isEmpty_cons, Bool.false_eq_true, if_false, this, if_true, true_iff]
      exact Or.inr hc
    · have : ((a :: as).any (fun l => decide (l < 0)) || (a :: as).any (fun l => decide ((wfs.ncols : Int) ≤ l))) = false := by
        rw [Bool.or_eq_false_iff, List.any_eq_false, List.any_eq_false]
        exact ⟨fun l hl h => hc ⟨l, hl, Or.inl (by simpa using h)⟩, fun l hl h => hc ⟨l, hl, Or.inr (by simpa using h)⟩⟩
      simp only [List.isEmpty_cons, Bool.false_eq_true, if_false, this]
      simp only [reduceCtorEq, false_or, false_iff]
      exact hc

example : integrate [0, 6] ⟨[[1, 2, 3, 4, 5, 6]], 6⟩ = .error .valueError ∧ integrate [] ⟨[[1]], 1⟩ = .error .valueError := by decide +kernel

/-! ### C43: filtering the limits -/

theorem sorted_countP_lt {xs : List Int} (hs : xs.Pairwise (· ≤ ·)) (p : Int → Bool) (hp : ∀ x y, x ≤ y → p y = true → p x = true) :
    ∀ (i : Nat) (x : Int), xs[i]? = some x → (p x = true ↔ i < xs.countP p) := by
  induction xs with
  | nil => intro i x h; simp at h
  | cons a xs ih =>
    intro i x h
    obtain ⟨h1, h2⟩ := List.pairwise_cons.1 hs
    by_cases ha : p a = true
    · rw [List.countP_cons_of_pos ha]
      cases i with
      | zero => simp at h; subst h; simp [ha]
      | succ i =>
        rw [ih h2 i x (by simpa using h)]
        omega
    · rw [List.countP_cons_of_neg ha]
      have h0 : xs.countP p = 0 := List.countP_eq_zero.2 (fun y hy hpy => ha (hp a y (h1 y hy) hpy))
      rw [h0]
      cases i with
      | zero => simp at h; subst h; simp [ha]
      | succ i =>
        have hx := List.mem_of_getElem? (show xs[i]? = some x by simpa using h)
        simp only [Nat.not_lt_zero, iff_false]
        exact fun hpx => ha (hp a x (h1 x hx) hpx)

theorem sorted_countP_ge {xs : List Int} (hs : xs.Pairwise (· ≤ ·)) (p : Int → Bool) (hp : ∀ x y, x ≤ y → p x = true → p y = true)
    (i : Nat) (x : Int) (h : xs[i]? = some x) : p x = true ↔ xs.length - xs.countP p ≤ i := by
  have h1 := sorted_countP_lt hs (fun y => !p y) (fun x y hxy hy => by
    have h2 : p y = false := by simpa using hy
    have h3 : p x = false := by
      cases hx : p x with
      | false => rfl
      | true => rw [hp x y hxy hx] at h2; cases h2
    simp [h3]) i x h
  have h2 := List.length_eq_countP_add_countP p (l := xs)
  have h3 : xs.countP (fun y => !p y) = xs.countP (fun a => ¬ p a) := by
    apply List.countP_congr; intro a _; simp
  rw [h3] at h1
  have h4 : xs.length - xs.countP p = xs.countP (fun a => ¬ p a) := by
    simp only [decide_not, Bool.decide_eq_true] at h2 ⊢
    omega
  rw [h4, ← not_lt, ← h1]
  simp

theorem applyMask_pairs (ws : List (Int × Int)) (f : Int × Int → Bool) :
    applyMask (limitsOf ws) (ws.flatMap fun w => [f w, f w]) = limitsOf (ws.filter f) := by
  induction ws with
  | nil => rfl
  | cons w ws ih =>
    simp only [applyMask, limitsOf] at ih
    by_cases h : f w = true
    · simp [applyMask, limitsOf, h, ih]
    · simp [applyMask, limitsOf, h, ih]

theorem length_limitsOf (ws : List (Int × Int)) : (limitsOf ws).length = 2 * ws.length := by
  induction ws with
  | nil => rfl
  | cons w ws ih =>
    simp only [limitsOf] at ih
    simp only [limitsOf, List.flatMap_cons, List.length_append, ih, List.length_cons, List.length_nil]; omega

theorem limitsOf_get (ws : List (Int × Int)) (k : Nat) :
    (limitsOf ws)[2 * k]? = ws[k]?.map Prod.fst ∧ (limitsOf ws)[2 * k + 1]? = ws[k]?.map Prod.snd := by
  induction ws generalizing k with
  | nil => simp [limitsOf]
  | cons w ws ih =>
    cases k with
    | zero => simp [limitsOf]
    | succ k =>
      have h1 : (limitsOf (w :: ws))[2 * (k + 1)]? = (limitsOf ws)[2 * k]? := by
        rw [show 2 * (k + 1) = 2 * k + 1 + 1 by ring]; simp [limitsOf]
      have h2 : (limitsOf (w :: ws))[2 * (k + 1) + 1]? = (limitsOf ws)[2 * k + 1]? := by
        rw [show 2 * (k + 1) + 1 = 2 * k + 1 + 1 + 1 by ring]; simp [limitsOf]
      rw [h1, h2]
      simpa using ih k

theorem doubled_get (ws : List (Int × Int)) (f : Int × Int → Bool) (k : Nat) :
    (ws.flatMap fun w => [f w, f w])[2 * k]? = ws[k]?.map f ∧ (ws.flatMap fun w => [f w, f w])[2 * k + 1]? = ws[k]?.map f := by
  induction ws generalizing k with
  | nil => simp
  | cons w ws ih =>
    cases k with
    | zero => simp
    | succ k =>
      have := ih k
      rw [show 2 * (k + 1) = 2 * k + 1 + 1 by ring, show 2 * k + 1 + 1 + 1 = (2 * k + 1) + 1 + 1 by ring]
      simpa using this

theorem setFalse_get {mask out : List Bool} {i : Int} (h : setFalse mask i = .ok out) : out.length = mask.length ∧
    ∀ j : Nat, out[j]? = if (j : Int) = (if 0 ≤ i then i else mask.length + i) ∧ j < mask.length then some false else mask[j]? := by
  unfold setFalse at h
  split at h
  · rename_i hi
    simp only [Except.ok.injEq] at h; subst h
    refine ⟨by simp, fun j => ?_⟩
    rw [List.getElem?_set, if_pos hi.1]
    by_cases hj : i.toNat = j
    · rw [if_pos hj]
      by_cases hl : j < mask.length
      · rw [if_pos (by omega), if_pos (by omega)]
      · rw [if_neg (by omega), if_neg (by omega), List.getElem?_eq_none (by omega)]
    · rw [if_neg hj, if_neg (by omega)]
  · split at h
    · rename_i h1 hi
      simp only [Except.ok.injEq] at h; subst h
      refine ⟨by simp, fun j => ?_⟩
      rw [List.getElem?_set, if_neg (show ¬ 0 ≤ i by omega)]
      by_cases hj : ((mask.length : Int) + i).toNat = j
      · rw [if_pos hj]
        by_cases hl : j < mask.length
        · rw [if_pos (by omega), if_pos (by omega)]
        · rw [if_neg (by omega), if_neg (by omega), List.getElem?_eq_none (by omega)]
      · rw [if_neg hj, if_neg (by omega)]
    · cases h

/-- **C43** Filtering limits in increasing order keeps exactly the windows inside the buffer, whole and in order, provided that the first half
of the limits does not go over the end of the buffer and the second half does not start before its beginning. -/
theorem filterLimits_spec_partial (ws : List (Int × Int)) (n : Nat) (hs : (limitsOf ws).Pairwise (· ≤ ·))
    (h1 : ∀ l ∈ (limitsOf ws).take ws.length, l ≤ n) (h2 : ∀ l ∈ (limitsOf ws).drop ws.length, 0 ≤ l) :
    filterLimits (limitsOf ws) n = .ok (limitsOf (ws.filter fun w => decide (Inside n w))) := by
  set L := limitsOf ws with hL
  have hlen : L.length = 2 * ws.length := length_limitsOf ws
  have hhalf : L.length / 2 = ws.length := by omega
  set mask := L.map (fun l => decide (0 ≤ l ∧ l < (n : Int) + 1)) with hmask
  have hml : mask.length = 2 * ws.length := by simp [hmask, hlen]
  set n1 := (mask.take (L.length / 2)).countP (fun b => !b) with hn1
  set n2 := (mask.drop (L.length / 2)).countP (fun b => !b) with hn2
  have hn1le : n1 ≤ ws.length := by
    have := List.countP_le_length (p := fun b => !b) (l := mask.take (L.length / 2))
    rw [List.length_take] at this; omega
  have hn2le : n2 ≤ ws.length := by
    have := List.countP_le_length (p := fun b => !b) (l := mask.drop (L.length / 2))
    rw [List.length_drop] at this; omega
  have hn1' : n1 = (L.take ws.length).countP (fun l => decide (l < 0)) := by
    rw [hn1, hmask, hhalf, ← List.map_take, List.countP_map]
    apply List.countP_congr
    intro l hl
    have := h1 l hl
    simp; omega
  have hn2' : n2 = (L.drop ws.length).countP (fun l => decide ((n : Int) < l)) := by
    rw [hn2, hmask, hhalf, ← List.map_drop, List.countP_map]
    apply List.countP_congr
    intro l hl
    have := h2 l hl
    simp; omega
  have hlow : ∀ (i : Nat) (x : Int), L[i]? = some x → (x < 0 ↔ i < n1) := by
    intro i x hx
    have hi := (List.getElem?_eq_some_iff.1 hx).1
    by_cases hc : i < ws.length
    · have := sorted_countP_lt (hs.sublist (List.take_sublist ws.length L)) (fun l => decide (l < 0))
        (fun x y hxy hy => by simp at hy ⊢; omega) i x (by rw [List.getElem?_take, if_pos hc]; exact hx)
      rw [← hn1'] at this
      simpa using this
    · have := h2 x (List.mem_of_getElem? (i := i - ws.length) (by rw [List.getElem?_drop]; rw [show ws.length + (i - ws.length) = i by omega]; exact hx))
      omega
  have hhigh : ∀ (i : Nat) (x : Int), L[i]? = some x → ((n : Int) < x ↔ 2 * ws.length - n2 ≤ i) := by
    intro i x hx
    have hi := (List.getElem?_eq_some_iff.1 hx).1
    by_cases hc : i < ws.length
    · have := h1 x (List.mem_of_getElem? (i := i) (by rw [List.getElem?_take, if_pos hc]; exact hx))
      omega
    · have := sorted_countP_ge (hs.sublist (List.drop_sublist ws.length L)) (fun l => decide ((n : Int) < l))
        (fun x y hxy hy => by simp at hy ⊢; omega) (i - ws.length) x
        (by rw [List.getElem?_drop, show ws.length + (i - ws.length) = i by omega]; exact hx)
      rw [← hn2', List.length_drop, hlen] at this
      simp only [decide_eq_true_eq] at this
      rw [this]; omega
  have hget : ∀ i < 2 * ws.length, mask[i]? = some (decide (n1 ≤ i ∧ i < 2 * ws.length - n2)) := by
    intro i hi
    have hx : L[i]? = some L[i] := List.getElem?_eq_getElem (by omega)
    rw [hmask, List.getElem?_map, hx, Option.map_some]
    congr 1
    have a := hlow i _ hx
    have b := hhigh i _ hx
    rw [decide_eq_decide]
    omega
  -- first correction
  obtain ⟨m1, e1, hm1l, hm1⟩ : ∃ m1, (if n1 % 2 = 1 then setFalse mask n1 else .ok mask) = .ok m1 ∧ m1.length = 2 * ws.length ∧
      ∀ i < 2 * ws.length, m1[i]? = some (decide (n1 + n1 % 2 ≤ i ∧ i < 2 * ws.length - n2)) := by
    by_cases hodd : n1 % 2 = 1
    · rw [if_pos hodd]
      have hr : 0 ≤ (n1 : Int) ∧ (n1 : Int) < mask.length := by rw [hml]; omega
      have hset : setFalse mask n1 = .ok (mask.set n1 false) := by rw [setFalse, if_pos hr]; simp
      obtain ⟨a, b⟩ := setFalse_get hset
      refine ⟨_, hset, by rw [a, hml], fun i hi => ?_⟩
      rw [b i, if_pos hr.1, hget i hi]
      by_cases hc : (i : Int) = n1 ∧ i < mask.length
      · rw [if_pos hc]; simp; omega
      · rw [if_neg hc]; congr 1; rw [decide_eq_decide]; omega
    · rw [if_neg hodd]
      refine ⟨mask, rfl, hml, fun i hi => ?_⟩
      rw [hget i hi]; congr 1; rw [decide_eq_decide]; omega
  obtain ⟨m2, e2, hm2l, hm2⟩ : ∃ m2, (if n2 % 2 = 1 then setFalse m1 (-(n2 : Int) - 1) else .ok m1) = .ok m2 ∧ m2.length = 2 * ws.length ∧
      ∀ i < 2 * ws.length, m2[i]? = some (decide (n1 + n1 % 2 ≤ i ∧ i < 2 * ws.length - (n2 + n2 % 2))) := by
    by_cases hodd : n2 % 2 = 1
    · rw [if_pos hodd]
      have hr : ¬ (0 ≤ -(n2 : Int) - 1 ∧ -(n2 : Int) - 1 < m1.length) := by omega
      have hr2 : -(n2 : Int) - 1 < 0 ∧ 0 ≤ (m1.length : Int) + (-(n2 : Int) - 1) := by rw [hm1l]; omega
      have hset : setFalse m1 (-(n2 : Int) - 1) = .ok (m1.set ((m1.length : Int) + (-(n2 : Int) - 1)).toNat false) := by
        rw [setFalse, if_neg hr, if_pos hr2]
      obtain ⟨a, b⟩ := setFalse_get hset
      refine ⟨_, hset, by rw [a, hm1l], fun i hi => ?_⟩
      rw [b i, if_neg (show ¬ 0 ≤ -(n2 : Int) - 1 by omega), hm1 i hi, hm1l]
      by_cases hc : (i : Int) = ((2 * ws.length : Nat) : Int) + (-(n2 : Int) - 1) ∧ i < 2 * ws.length
      · rw [if_pos hc]; simp; omega
      · rw [if_neg hc]; congr 1; rw [decide_eq_decide]; omega
    · rw [if_neg hodd]
      refine ⟨m1, rfl, hm1l, fun i hi => ?_⟩
      rw [hm1 i hi]; congr 1; rw [decide_eq_decide]; omega
  have hfin : m2 = ws.flatMap fun w => [decide (Inside n w), decide (Inside n w)] := by
    have hdl : (ws.flatMap fun w => [decide (Inside n w), decide (Inside n w)]).length = 2 * ws.length := by
      rw [List.length_flatMap]; simp [Nat.mul_comm]
    apply List.ext_getElem?
    intro i
    by_cases hi : i < 2 * ws.length
    · rw [hm2 i hi]
      have hk : i / 2 < ws.length := by omega
      obtain ⟨g1, g2⟩ := doubled_get ws (fun w => decide (Inside n w)) (i / 2)
      obtain ⟨l1, l2⟩ := limitsOf_get ws (i / 2)
      rw [List.getElem?_eq_getElem hk, Option.map_some] at g1 g2 l1 l2
      have a1 := hlow _ _ l1
      have a2 := hhigh _ _ l2
      have hins : (n1 + n1 % 2 ≤ i ∧ i < 2 * ws.length - (n2 + n2 % 2)) ↔ Inside n ws[i / 2] := by
        unfold Inside; omega
      rcases Nat.mod_two_eq_zero_or_one i with hm | hm
      · rw [show i = 2 * (i / 2) by omega, g1]
        congr 1
        rw [decide_eq_decide, ← hins, show 2 * (i / 2) = i by omega]
      · rw [show i = 2 * (i / 2) + 1 by omega, g2]
        congr 1
        rw [decide_eq_decide, ← hins, show 2 * (i / 2) + 1 = i by omega]
    · rw [List.getElem?_eq_none (by omega), List.getElem?_eq_none (by omega)]
  have : filterLimits L n = .ok (applyMask L m2) := by
    unfold filterLimits
    simp only []
    rw [← hmask, ← hn1, ← hn2, e1]
    simp only [e2]
  rw [this, hfin, hL, applyMask_pairs]

example : filterLimits [-3, -1, 2, 4, 7, 9, 12, 14] 8 = .ok [2, 4] ∧ (limitsOf [(-3, -1), (2, 4), (7, 9), (12, 14)]).Pairwise (· ≤ ·) ∧
    (∀ l ∈ (limitsOf [(-3, -1), (2, 4), (7, 9), (12, 14)]).take 4, l ≤ 8) ∧
    ∀ l ∈ (limitsOf [(-3, -1), (2, 4), (7, 9), (12, 14)]).drop 4, 0 ≤ l := by decide

/-- The restriction is needed: when more than half of the limits are after the end of the buffer a window is cut, and the result is not a list of
whole windows. -/
theorem filterLimits_cuts_window : filterLimits (limitsOf [(1, 3), (5, 7), (9, 11)]) 4 = .ok [1] ∧
    ∀ ws, limitsOf ws ≠ [1] := by
  refine ⟨by decide, fun ws h => ?_⟩
  have := congrArg List.length h
  rw [length_limitsOf] at this
  simp at this

/-- **C43** Filtering the limits of windows never fails and keeps some of the limits, in order, all of them inside the buffer. -/
theorem filterLimits_inside (ws : List (Int × Int)) (n : Nat) :
    ∃ out, filterLimits (limitsOf ws) n = .ok out ∧ out.Sublist (limitsOf ws) ∧ ∀ l ∈ out, 0 ≤ l ∧ l ≤ n := by
  have hlen : (limitsOf ws).length = 2 * ws.length := length_limitsOf ws
  have hml : ((limitsOf ws).map (fun l => decide (0 ≤ l ∧ l < (n : Int) + 1))).length = 2 * ws.length := by simp [hlen]
  have h1 := List.countP_le_length (p := fun b => !b) (l := ((limitsOf ws).map (fun l => decide (0 ≤ l ∧ l < (n : Int) + 1))).take ((limitsOf ws).length / 2))
  have h2 := List.countP_le_length (p := fun b => !b) (l := ((limitsOf ws).map (fun l => decide (0 ≤ l ∧ l < (n : Int) + 1))).drop ((limitsOf ws).length / 2))
  rw [List.length_take] at h1
  rw [List.length_drop] at h2
  unfold filterLimits
  simp only []
  generalize hn1 : (((limitsOf ws).map (fun l => decide (0 ≤ l ∧ l < (n : Int) + 1))).take ((limitsOf ws).length / 2)).countP (fun b => !b) = n1 at *
  generalize hn2 : (((limitsOf ws).map (fun l => decide (0 ≤ l ∧ l < (n : Int) + 1))).drop ((limitsOf ws).length / 2)).countP (fun b => !b) = n2 at *
  have step : ∀ (mask : List Bool) (c : Nat) (i : Int), mask.length = 2 * ws.length → (c % 2 = 1 → -(mask.length : Int) ≤ i ∧ i < mask.length) →
      ∃ out, (if c % 2 = 1 then setFalse mask i else .ok mask) = .ok out ∧ out.length = mask.length ∧ ∀ j : Nat, out[j]? = some true → mask[j]? = some true := by
    intro mask c i hm hi
    by_cases hc : c % 2 = 1
    · rw [if_pos hc]
      obtain ⟨a, b⟩ := hi hc
      obtain ⟨out, ho⟩ : ∃ out, setFalse mask i = .ok out := by
        unfold setFalse
        split
        · exact ⟨_, rfl⟩
        · rw [if_pos (by omega)]; exact ⟨_, rfl⟩
      obtain ⟨g1, g2⟩ := setFalse_get ho
      refine ⟨out, ho, g1, fun j hj => ?_⟩
      rw [g2 j] at hj
      by_cases hcond : (j : Int) = (if 0 ≤ i then i else mask.length + i) ∧ j < mask.length
      · rw [if_pos hcond] at hj; cases hj
      · rw [if_neg hcond] at hj; exact hj
    · rw [if_neg hc]; exact ⟨mask, rfl, rfl, fun j h => h⟩
  obtain ⟨m1, e1, l1, t1⟩ := step ((limitsOf ws).map fun l => decide (0 ≤ l ∧ l < (n : Int) + 1)) n1 n1 hml (by rw [hml]; omega)
  obtain ⟨m2, e2, l2, t2⟩ := step m1 n2 (-(n2 : Int) - 1) (by rw [l1, hml]) (by rw [l1, hml]; omega)
  rw [e1]
  simp only []
  rw [e2]
  refine ⟨_, rfl, ?_, ?_⟩
  · unfold applyMask
    have : ((limitsOf ws).zip m2).map Prod.fst = limitsOf ws := List.map_fst_zip (by omega)
    exact (List.filter_sublist.map Prod.fst).trans (by rw [this])
  · intro l hl
    simp only [applyMask, List.mem_map, List.mem_filter] at hl
    obtain ⟨⟨a, b⟩, ⟨hz, hb⟩, rfl⟩ := hl
    simp only at hb; subst hb
    obtain ⟨j, hj⟩ := List.mem_iff_getElem?.1 hz
    rw [List.getElem?_zip_eq_some] at hj
    have := t1 j (t2 j hj.2)
    rw [List.getElem?_map, hj.1] at this
    simp at this; omega

example : filterLimits (limitsOf [(-1, 3), (4, 9)]) 5 = .ok [] ∧ filterLimits (limitsOf [(0, 3), (4, 9)]) 5 = .ok [0, 3] := by decide

/-! ### C43: light and dark windows -/

/-- **C43** The limits computed for calibration are those of the light windows and of the dark windows. -/
theorem limits_are_windows (w : Windows) (n : Nat) :
    corrLimits w n = limitsOf ((List.range n).map (lightWindow w)) ∧ antiLimits w n = limitsOf ((List.range n).map (darkWindow w)) := by
  constructor
  · simp only [corrLimits, limitsOf, List.flatMap_map, lightWindow]
    congr 1
    funext k
    congr 2
    ring
  · simp only [antiLimits, corrLimits, limitsOf, List.flatMap_map, darkWindow, List.map_flatMap, List.map_cons, List.map_nil]
    congr 1
    funext k
    rw [show w.first + (k : Int) * w.period - w.width - w.gap = w.first + k * w.period - w.gap - w.width by ring,
      show w.first + w.width + (k : Int) * w.period - w.width - w.gap = w.first + k * w.period - w.gap by ring]

example : corrLimits ⟨10, 3, 20, 2⟩ 2 = [10, 13, 30, 33] ∧ antiLimits ⟨10, 3, 20, 2⟩ 2 = [5, 8, 25, 28] := by decide

/-- **C43** Dark windows do not overlap with light windows if a light window, the gap and a dark window fit in the period. -/
theorem dark_light_disjoint (w : Windows) (hg : 0 ≤ w.gap) (hp : 2 * w.width + w.gap ≤ w.period) (j k : Nat) :
    Disjoint (darkWindow w j) (lightWindow w k) := by
  intro i
  simp only [darkWindow, lightWindow]
  rintro ⟨⟨h1, h2⟩, h3, h4⟩
  have hp0 : 0 ≤ w.period := by omega
  by_cases hjk : j ≤ k
  · have : (j : Int) * w.period ≤ k * w.period := mul_le_mul_of_nonneg_right (by exact_mod_cast hjk) hp0
    omega
  · have : ((k : Int) + 1) * w.period ≤ j * w.period := mul_le_mul_of_nonneg_right (by omega) hp0
    have e : ((k : Int) + 1) * w.period = k * w.period + w.period := by ring
    omega

example : Disjoint (darkWindow ⟨10, 3, 8, 2⟩ 1) (lightWindow ⟨10, 3, 8, 2⟩ 0) ∧ (2 * 3 + 2 : Int) ≤ 8 :=
  ⟨dark_light_disjoint ⟨10, 3, 8, 2⟩ (by decide) (by decide) 1 0, by decide⟩

/-- With a shorter period they do overlap. -/
theorem dark_light_overlap : ¬ Disjoint (darkWindow ⟨10, 3, 7, 2⟩ 1) (lightWindow ⟨10, 3, 7, 2⟩ 0) := by
  intro h
  exact h 12 (by decide)

theorem windows_sorted (f : Nat → Int × Int) (h1 : ∀ k, (f k).1 ≤ (f k).2) (h2 : ∀ k, (f k).2 ≤ (f (k + 1)).1) (n : Nat) :
    (limitsOf ((List.range n).map f)).Pairwise (· ≤ ·) := by
  have hm : ∀ j k, j < k → (f j).2 ≤ (f k).1 := by
    intro j k hjk
    induction k with
    | zero => omega
    | succ k ih =>
      rcases Nat.lt_succ_iff_lt_or_eq.1 hjk with h | h
      · exact (ih h).trans ((h1 k).trans (h2 k))
      · subst h; exact h2 j
  induction n with
  | zero => simp [limitsOf]
  | succ n ih =>
    have e : limitsOf ((List.range (n + 1)).map f) = limitsOf ((List.range n).map f) ++ [(f n).1, (f n).2] := by
      simp [limitsOf, List.range_succ]
    rw [e, List.pairwise_append]
    refine ⟨ih, by simpa using h1 n, ?_⟩
    intro a ha b hb
    simp only [limitsOf, List.mem_flatMap, List.mem_map, List.mem_range] at ha
    obtain ⟨_, ⟨j, hj, rfl⟩, ha⟩ := ha
    have h3 := hm j n hj
    have h4 := h1 j
    have h5 := h1 n
    rcases List.mem_cons.1 ha with rfl | ha
    · rcases List.mem_cons.1 hb with rfl | hb
      · omega
      · simp at hb; omega
    · simp at ha
      rcases List.mem_cons.1 hb with rfl | hb
      · omega
      · simp at hb; omega

theorem calib_sorted (w : Windows) (n : Nat) (h0 : 0 ≤ w.width) (hp : w.width ≤ w.period) :
    (corrLimits w n).Pairwise (· ≤ ·) ∧ (antiLimits w n).Pairwise (· ≤ ·) := by
  rw [(limits_are_windows w n).1, (limits_are_windows w n).2]
  constructor <;> apply windows_sorted
  · intro k; simp only [lightWindow]; omega
  · intro k; simp only [lightWindow]; push_cast; rw [add_mul]; omega
  · intro k; simp only [darkWindow]; omega
  · intro k; simp only [darkWindow]; push_cast; rw [add_mul]; omega

/-- **C43** The windows in samples contain the windows in microseconds: they start in the sample of the first microsecond of the window and have the
smallest whole number of samples that covers the width (and the period) asked for. -/
theorem windowsOf_spec (sw start width period : ℚ) (h : 0 < sw) :
    (((windowsOf sw start width period).first : ℚ) * sw ≤ start * 1000 ∧ start * 1000 < ((windowsOf sw start width period).first + 1) * sw) ∧
    (width * 1000 ≤ (windowsOf sw start width period).width * sw ∧ ((windowsOf sw start width period).width - 1) * sw < width * 1000) ∧
    (period * 1000 ≤ (windowsOf sw start width period).period * sw ∧ ((windowsOf sw start width period).period - 1) * sw < period * 1000) ∧
    ((windowsOf sw start width period).gap * sw ≤ 2000 ∧ 2000 < ((windowsOf sw start width period).gap + 1) * sw) := by
  have fl : ∀ x : ℚ, (⌊x / sw⌋ : ℚ) * sw ≤ x ∧ x < ((⌊x / sw⌋ : ℚ) + 1) * sw := by
    intro x
    have h1 := Int.floor_le (x / sw)
    have h2 := Int.lt_floor_add_one (x / sw)
    rw [le_div_iff₀ h] at h1
    rw [div_lt_iff₀ h] at h2
    exact ⟨h1, h2⟩
  have ce : ∀ x : ℚ, x ≤ (⌈x / sw⌉ : ℚ) * sw ∧ ((⌈x / sw⌉ : ℚ) - 1) * sw < x := by
    intro x
    have h1 := Int.le_ceil (x / sw)
    have h2 : (⌈x / sw⌉ : ℚ) - 1 < x / sw := by linarith [Int.ceil_lt_add_one (x / sw)]
    rw [div_le_iff₀ h] at h1
    rw [lt_div_iff₀ h] at h2
    exact ⟨h1, h2⟩
  refine ⟨fl _, ce _, ce _, ?_⟩
  have := fl (2 * 1000)
  rw [show (2 : ℚ) * 1000 = 2000 by norm_num] at this
  simpa [windowsOf, show (2 : ℚ) * 1000 = 2000 by norm_num] using this

example : windowsOf 25 1 (1/2) 2 = ⟨40, 20, 80, 80⟩ := by decide +kernel

/-- **C43** From configuration to integrals: when all the light windows are inside the waveform and end before its last sample, the light integrals of
a sensor are the sums of its samples in the light windows (and the same for the dark ones). -/
theorem calibration_integrals (w : Windows) (n : Nat) (wfs : Mat) (hn : 0 < n) (h0 : 0 < w.width) (hp : w.width ≤ w.period)
    (hd : ∀ k < n, 0 ≤ (darkWindow w k).1 ∧ (darkWindow w k).2 < wfs.ncols)
    (hl : ∀ k < n, 0 ≤ (lightWindow w k).1 ∧ (lightWindow w k).2 < wfs.ncols) :
    ∃ light dark, validLimits w n wfs.ncols = .ok (light, dark) ∧
      integrate light wfs = .ok (wfs.rows.map fun wf => (List.range n).map fun k => chargeIn wf (lightWindow w k).1.toNat (lightWindow w k).2.toNat) ∧
      integrate dark wfs = .ok (wfs.rows.map fun wf => (List.range n).map fun k => chargeIn wf (darkWindow w k).1.toNat (darkWindow w k).2.toNat) := by
  have key : ∀ (f : Nat → Int × Int), (∀ k, (f k).1 < (f k).2) → (limitsOf ((List.range n).map f)).Pairwise (· ≤ ·) →
      (∀ k < n, 0 ≤ (f k).1 ∧ (f k).2 < wfs.ncols) →
      filterLimits (limitsOf ((List.range n).map f)) wfs.ncols = .ok (limitsOf ((List.range n).map f)) ∧
      integrate (limitsOf ((List.range n).map f)) wfs =
        .ok (wfs.rows.map fun wf => (List.range n).map fun k => chargeIn wf (f k).1.toNat (f k).2.toNat) := by
    intro f hlt hs hb
    have hmem : ∀ l ∈ limitsOf ((List.range n).map f), 0 ≤ l ∧ l ≤ wfs.ncols := by
      intro l hl'
      simp only [limitsOf, List.mem_flatMap, List.mem_map, List.mem_range] at hl'
      obtain ⟨_, ⟨j, hj, rfl⟩, ha⟩ := hl'
      have h1 := hb j hj
      have h2 := hlt j
      rcases List.mem_cons.1 ha with rfl | ha
      · omega
      · simp at ha; omega
    constructor
    · rw [filterLimits_spec_partial _ _ hs (fun l hl' => (hmem l (List.mem_of_mem_take hl')).2) (fun l hl' => (hmem l (List.mem_of_mem_drop hl')).1)]
      rw [List.filter_eq_self.2]
      intro x hx
      obtain ⟨k, hk, rfl⟩ := List.mem_map.1 hx
      have h1 := hb k (List.mem_range.1 hk)
      have h2 := hlt k
      rw [decide_eq_true_eq]; unfold Inside; omega
    · have e : limitsOf ((List.range n).map f) =
          limitsOf (((List.range n).map fun k => ((f k).1.toNat, (f k).2.toNat)).map fun w => ((w.1 : Int), (w.2 : Int))) := by
        congr 1
        rw [List.map_map]
        apply List.map_congr_left
        intro k hk
        have h1 := hb k (List.mem_range.1 hk)
        have h2 := hlt k
        simp only [Function.comp]
        ext <;> simp <;> omega
      rw [e, integrate_spec]
      · simp [List.map_map, Function.comp_def]
      · intro h
        have := congrArg List.length h
        simp at this; omega
      · intro x hx
        obtain ⟨k, hk, rfl⟩ := List.mem_map.1 hx
        have h1 := hb k (List.mem_range.1 hk)
        have h2 := hlt k
        simp only; omega
  obtain ⟨s1, s2⟩ := calib_sorted w n h0.le hp
  obtain ⟨e1, e2⟩ := limits_are_windows w n
  rw [e1] at s1
  rw [e2] at s2
  obtain ⟨a1, a2⟩ := key (lightWindow w) (fun k => by simp only [lightWindow]; omega) s1 hl
  obtain ⟨b1, b2⟩ := key (darkWindow w) (fun k => by simp only [darkWindow]; omega) s2 hd
  exact ⟨_, _, by simp only [validLimits, e1, e2, a1, b1], a2, b2⟩

example : validLimits ⟨5, 2, 6, 1⟩ 2 14 = .ok ([5, 7, 11, 13], [2, 4, 8, 10]) ∧
    (∀ k < 2, 0 ≤ (darkWindow ⟨5, 2, 6, 1⟩ k).1 ∧ (darkWindow ⟨5, 2, 6, 1⟩ k).2 < 14) ∧
    ∀ k < 2, 0 ≤ (lightWindow ⟨5, 2, 6, 1⟩ k).1 ∧ (lightWindow ⟨5, 2, 6, 1⟩ k).2 < 14 := by decide

/-- A window that ends at the end of the waveform is kept by the filter and then refused by the integration. -/
theorem last_window_refused : validLimits ⟨5, 2, 6, 1⟩ 2 13 = .ok ([5, 7, 11, 13], [2, 4, 8, 10]) ∧
    integrate [5, 7, 11, 13] ⟨[List.replicate 13 1], 13⟩ = .error .valueError := by decide +kernel

/-! ### C43: histograms of integrals -/

/-- The count of the bin `k` of sensor `s` in an event. -/
def binOf (h : List (List Nat)) (s k : Nat) : Nat := (h.getD s []).getD k 0

theorem zipWith_add_get (a b : List Nat) (k : Nat) (hl : a.length = b.length) :
    (List.zipWith (· + ·) a b).getD k 0 = a.getD k 0 + b.getD k 0 := by
  simp only [List.getD_eq_getElem?_getD, List.getElem?_zipWith]
  by_cases hk : k < a.length
  · rw [List.getElem?_eq_getElem hk, List.getElem?_eq_getElem (by omega : k < b.length)]; rfl
  · rw [List.getElem?_eq_none (by omega), List.getElem?_eq_none (by omega)]; rfl

theorem sumHistograms_spec (nsensors nbins : Nat) (events : List (List (List Nat)))
    (hw : ∀ h ∈ events, h.length = nsensors ∧ ∀ r ∈ h, r.length = nbins) :
    ((sumHistograms nsensors nbins events).length = nsensors ∧ ∀ r ∈ sumHistograms nsensors nbins events, r.length = nbins) ∧
    ∀ s k, binOf (sumHistograms nsensors nbins events) s k = (events.map fun h => binOf h s k).sum := by
  unfold sumHistograms
  have key : ∀ (acc : List (List Nat)), (acc.length = nsensors ∧ ∀ r ∈ acc, r.length = nbins) →
      let out := events.foldl (fun acc h => List.zipWith (List.zipWith (· + ·)) acc h) acc
      (out.length = nsensors ∧ ∀ r ∈ out, r.length = nbins) ∧
      ∀ s k, binOf out s k = binOf acc s k + (events.map fun h => binOf h s k).sum := by
    induction events with
    | nil => intro acc ha; exact ⟨ha, fun s k => by simp⟩
    | cons h hs ih =>
      intro acc ha
      obtain ⟨b1, b2⟩ := hw h List.mem_cons_self
      have hstep : (List.zipWith (List.zipWith (· + ·)) acc h).length = nsensors ∧ ∀ r ∈ List.zipWith (List.zipWith (· + ·)) acc h, r.length = nbins := by
        refine ⟨by rw [List.length_zipWith, ha.1, b1, Nat.min_self], fun r hr => ?_⟩
        obtain ⟨i, hi⟩ := List.mem_iff_getElem?.1 hr
        rw [List.getElem?_zipWith] at hi
        cases h1 : acc[i]? with
        | none => rw [h1] at hi; simp at hi
        | some x =>
          cases h2 : h[i]? with
          | none => rw [h1, h2] at hi; simp at hi
          | some y =>
            rw [h1, h2] at hi
            simp only [Option.some.injEq] at hi
            subst hi
            rw [List.length_zipWith, ha.2 x (List.mem_of_getElem? h1), b2 y (List.mem_of_getElem? h2), Nat.min_self]
      obtain ⟨c1, c2⟩ := ih (fun x hx => hw x (List.mem_cons_of_mem _ hx)) _ hstep
      refine ⟨c1, fun s k => ?_⟩
      have hb : binOf (List.zipWith (List.zipWith (· + ·)) acc h) s k = binOf acc s k + binOf h s k := by
        unfold binOf
        rw [List.getD_eq_getElem?_getD (l := List.zipWith (List.zipWith (· + ·)) acc h), List.getElem?_zipWith,
          List.getD_eq_getElem?_getD (l := acc), List.getD_eq_getElem?_getD (l := h)]
        by_cases hs' : s < nsensors
        · have e1 : acc[s]? = some acc[s] := List.getElem?_eq_getElem (by omega)
          have e2 : h[s]? = some h[s] := List.getElem?_eq_getElem (by omega)
          rw [e1, e2]
          simp only [Option.getD_some]
          apply zipWith_add_get
          rw [ha.2 _ (List.getElem_mem _), b2 _ (List.getElem_mem _)]
        · rw [List.getElem?_eq_none (by omega), List.getElem?_eq_none (by omega)]; rfl
      have := c2 s k
      simp only [List.foldl_cons, List.map_cons, List.sum_cons] at this ⊢
      rw [this, hb]; omega
  obtain ⟨h1, h2⟩ := key (List.replicate nsensors (List.replicate nbins 0))
    ⟨by simp, fun r hr => by rw [List.eq_of_mem_replicate hr]; simp⟩
  refine ⟨h1, fun s k => ?_⟩
  rw [h2 s k]
  have : binOf (List.replicate nsensors (List.replicate nbins 0)) s k = 0 := by
    unfold binOf
    simp only [List.getD_eq_getElem?_getD, List.getElem?_replicate]
    by_cases h1 : s < nsensors <;> by_cases h2 : k < nbins <;> simp [h1, h2, List.getElem?_replicate]
  omega

/-- **C43** The accumulated histogram of a sensor: each bin counts the integrals of the sensor, in all the events, that fall in the bin. -/
theorem accumulated_bins (bins : List ℚ) (nsensors : Nat) (events : List (List (List ℚ))) (hw : ∀ e ∈ events, e.length = nsensors)
    (s k : Nat) (hk : k < bins.length - 1) :
    binOf (sumHistograms nsensors (bins.length - 1) (events.map (binWaveforms bins))) s k =
      ((events.map fun e => e.getD s []).flatten.filter fun x => Voxels.histBin bins x == some k).length := by
  have h := (sumHistograms_spec nsensors (bins.length - 1) (events.map (binWaveforms bins)) (by
    intro h hh
    obtain ⟨e, he, rfl⟩ := List.mem_map.1 hh
    refine ⟨by simp [binWaveforms, hw e he], fun r hr => ?_⟩
    simp only [binWaveforms, List.mem_map] at hr
    obtain ⟨wf, _, rfl⟩ := hr
    simp)).2 s k
  rw [h]
  clear h
  induction events with
  | nil => rfl
  | cons e es ih =>
    simp only [List.map_cons, List.sum_cons, List.flatten_cons, List.filter_append, List.length_append]
    rw [ih (fun x hx => hw x (List.mem_cons_of_mem _ hx))]
    congr 1
    unfold binOf binWaveforms
    rw [List.getD_eq_getElem?_getD (l := List.map _ e), List.getElem?_map, List.getD_eq_getElem?_getD (l := e)]
    cases e[s]? with
    | none => simp
    | some wf =>
      simp only [Option.map_some, Option.getD_some]
      rw [List.getD_eq_getElem?_getD, List.getElem?_map, List.getElem?_range hk]
      simp [List.countP_eq_length_filter]

example : sumHistograms 1 2 ([[[(1 : ℚ)/2, 3/2, 3]], [[2, 1/4]]].map (binWaveforms [0, 1, 2])) = [[2, 2]] := by decide +kernel

theorem sum_ite_nat (o : Option Nat) (n : Nat) :
    ((List.range n).map fun k => if o = some k then 1 else 0).sum = if ∃ k < n, o = some k then 1 else 0 := by
  induction n with
  | zero => simp
  | succ n ih =>
    rw [List.range_succ, List.map_append, List.sum_append, ih]
    simp only [List.map_cons, List.map_nil, List.sum_cons, List.sum_nil, Nat.add_zero]
    by_cases h1 : ∃ k < n, o = some k
    · obtain ⟨k, hk, h3⟩ := h1
      have h4 : ∃ j < n, o = some j := ⟨k, hk, h3⟩
      have h5 : ∃ j < n + 1, o = some j := ⟨k, by omega, h3⟩
      have h6 : ¬ o = some n := by rw [h3]; simp; omega
      rw [if_pos h4, if_pos h5, if_neg h6]
    · rw [if_neg h1]
      by_cases h2 : o = some n
      · rw [if_pos h2, if_pos ⟨n, by omega, h2⟩]
      · rw [if_neg h2, if_neg]
        rintro ⟨k, hk, hk'⟩
        by_cases hkn : k = n
        · exact h2 (hkn ▸ hk')
        · exact h1 ⟨k, by omega, hk'⟩

/-- **C43** With equally spaced bin edges the histogram has one entry per integral between the first and the last edge. -/
theorem accumulated_total (a w : ℚ) (n : Nat) (hw : 0 < w) (hn : 0 < n) (xs : List ℚ) :
    ((List.range n).map fun k => xs.countP fun x => Voxels.histBin (grid a w n) x == some k).sum =
      xs.countP fun x => decide (a ≤ x ∧ x ≤ a + n * w) := by
  induction xs with
  | nil => simp
  | cons x xs ih =>
    simp only [List.countP_cons]
    rw [List.sum_map_add, ih]
    congr 1
    have := sum_ite_nat (Voxels.histBin (grid a w n) x) n
    simp only [histBin_grid_some hw hn] at this
    simpa using this

example : ((List.range 2).map fun k => [(1 : ℚ), 5, 2, 0].countP fun x => Voxels.histBin (grid 0 1 2) x == some k).sum = 3 := by decide +kernel

/-! ### C54: baseline subtraction -/

/-- **C54** Samples that are zero are left at zero, the others lose the baseline. -/
theorem baseline_subtraction (m : BlsMode) (wf : List Int) (i : Nat) :
    (subtractBaseline m wf).length = wf.length ∧ ∀ x, wf[i]? = some x →
      (subtractBaseline m wf)[i]? = some (if x = 0 then 0 else (x : ℚ) - baseline m wf) := by
  refine ⟨by simp [subtractBaseline], fun x hx => ?_⟩
  simp [subtractBaseline, List.getElem?_map, hx]

theorem sum_sub_const (c : ℚ) : ∀ xs : List ℚ, (xs.map fun x => if x = 0 then 0 else x - c).sum = (xs.filter (· ≠ 0)).sum - (xs.filter (· ≠ 0)).length * c
  | [] => by simp
  | x :: xs => by
    have ih := sum_sub_const c xs
    by_cases h : x = 0
    · simp only [List.map_cons, if_pos h, List.sum_cons, ih]
      rw [List.filter_cons_of_neg (by simpa using h)]; ring
    · simp only [List.map_cons, if_neg h, List.sum_cons, ih]
      rw [List.filter_cons_of_pos (by simpa using h), List.sum_cons, List.length_cons]; push_cast; ring

/-- **C54** With the mean, a waveform without baseline adds up to zero. -/
theorem mean_sums_to_zero (wf : List Int) : (subtractBaseline .mean wf).sum = 0 := by
  have e : subtractBaseline .mean wf = (wf.map fun x : Int => (x : ℚ)).map fun x => if x = 0 then 0 else x - zmean (wf.map fun x : Int => (x : ℚ)) := by
    simp only [subtractBaseline, baseline, List.map_map]
    apply List.map_congr_left
    intro x _
    simp only [Function.comp, Int.cast_eq_zero]
  rw [e, sum_sub_const]
  unfold zmean
  split
  · rename_i h
    rw [List.isEmpty_iff] at h
    rw [h]; simp
  · rename_i h
    have : ((wf.map fun x : Int => (x : ℚ)).filter (· ≠ 0)).length ≠ 0 := by
      intro h0; exact h (by rw [List.isEmpty_iff]; exact List.eq_nil_of_length_eq_zero h0)
    have h2 : (((wf.map fun x : Int => (x : ℚ)).filter (· ≠ 0)).length : ℚ) ≠ 0 := by exact_mod_cast this
    rw [mul_div_cancel₀ _ h2]; ring

example : subtractBaseline .mean [0, 5, 7, 0, 9] = [0, -2, 0, 0, 2] := by decide +kernel

/-- **C54** The median is that of the samples that are not zero (half of the difference of the two central values for an even number); without them it is
zero. -/
theorem median_baseline (wf : List Int) :
    (∃ x ∈ wf, x ≠ 0) ∧ (∃ s : List ℚ, s.Perm ((wf.filter (· ≠ 0)).map fun x : Int => (x : ℚ)) ∧ s.Pairwise (· ≤ ·) ∧
      ((∃ k m, s.length = 2 * k + 1 ∧ s[k]? = some m ∧ baseline .median wf = m) ∨
       (∃ k a b, s.length = 2 * k + 2 ∧ s[k]? = some a ∧ s[k + 1]? = some b ∧ baseline .median wf = (a + b) / 2))) ∨
    (∀ x ∈ wf, x = 0) ∧ baseline .median wf = 0 := by
  have e : (wf.map fun x : Int => (x : ℚ)).filter (· ≠ 0) = (wf.filter (· ≠ 0)).map fun x : Int => (x : ℚ) := by
    rw [List.filter_map]
    congr 1
    apply List.filter_congr
    intro x _
    simp
  by_cases h : ∃ x ∈ wf, x ≠ 0
  · left
    refine ⟨h, ?_⟩
    obtain ⟨x, hx, h0⟩ := h
    have hne : (wf.filter (· ≠ 0)).map (fun x : Int => (x : ℚ)) ≠ [] := by
      intro hn
      have : x ∈ wf.filter (· ≠ 0) := List.mem_filter.2 ⟨hx, by simpa using h0⟩
      rw [List.map_eq_nil_iff.1 hn] at this; cases this
    have hb : baseline .median wf = Wfm.median ((wf.filter (· ≠ 0)).map fun x : Int => (x : ℚ)) := by
      simp only [baseline, zmedian]
      rw [e, if_neg (by rw [List.isEmpty_iff]; exact hne)]
    obtain ⟨s, h1, h2, h3⟩ := Wfm.median_spec _ hne
    exact ⟨s, h1, h2, by rw [hb]; exact h3⟩
  · right
    push Not at h
    refine ⟨h, ?_⟩
    simp only [baseline, zmedian]
    rw [e, if_pos]
    rw [List.isEmpty_iff, List.map_eq_nil_iff, List.filter_eq_nil_iff]
    intro x hx; simp [h x hx]

example : baseline .median [0, 3, 8, 4, 0, 5] = 9 / 2 := by decide +kernel

theorem mostFrequent_mem (wf : List Int) : ∀ vs : List Nat, vs ≠ [] → mostFrequent wf vs ∈ vs ∧
    (∀ v ∈ vs, wf.count (v : Int) ≤ wf.count (mostFrequent wf vs : Int))
  | [], h => absurd rfl h
  | [v], _ => by simp [mostFrequent]
  | v :: w :: vs, _ => by
    obtain ⟨h1, h2⟩ := mostFrequent_mem wf (w :: vs) (by simp)
    rw [mostFrequent]
    · split
      · rename_i hc
        refine ⟨List.mem_cons_self, fun u hu => ?_⟩
        rcases List.mem_cons.1 hu with rfl | hu
        · exact le_rfl
        · exact (h2 u hu).trans hc
      · rename_i hc
        refine ⟨List.mem_cons_of_mem _ h1, fun u hu => ?_⟩
        rcases List.mem_cons.1 hu with rfl | hu
        · omega
        · exact h2 u hu
    · simp

theorem mostFrequent_first (wf : List Int) : ∀ vs : List Nat, vs.Pairwise (· < ·) → vs ≠ [] →
    ∀ v ∈ vs, wf.count (v : Int) = wf.count (mostFrequent wf vs : Int) → mostFrequent wf vs ≤ v
  | [], _, h => absurd rfl h
  | [v], _, _ => by simp [mostFrequent]
  | v :: w :: vs, hs, _ => by
    obtain ⟨p1, p2⟩ := List.pairwise_cons.1 hs
    have ih := mostFrequent_first wf (w :: vs) p2 (by simp)
    rw [mostFrequent]
    · split
      · intro u hu _
        rcases List.mem_cons.1 hu with rfl | hu
        · exact le_rfl
        · exact (p1 u hu).le
      · rename_i hc
        intro u hu he
        rcases List.mem_cons.1 hu with rfl | hu
        · omega
        · exact ih u hu he
    · simp

theorem foldl_max_ge (xs : List Int) : ∀ a : Int, a ≤ xs.foldl max a ∧ ∀ x ∈ xs, x ≤ xs.foldl max a := by
  induction xs with
  | nil => intro a; simp
  | cons x xs ih =>
    intro a
    obtain ⟨h1, h2⟩ := ih (max a x)
    refine ⟨by simp only [List.foldl_cons]; exact (le_max_left a x).trans h1, fun y hy => ?_⟩
    simp only [List.foldl_cons]
    rcases List.mem_cons.1 hy with rfl | hy
    · exact (le_max_right a y).trans h1
    · exact h2 y hy

/-- **C54** The mode is the most frequent of the positive values of the waveform, the smallest one when there are several; zero when no sample is positive. -/
theorem mode_baseline (wf : List Int) :
    (∀ x ∈ wf, x ≤ 0) ∧ baseline .mode wf = 0 ∨
    ∃ v ∈ wf, 0 < v ∧ baseline .mode wf = v ∧ ∀ u ∈ wf, 0 < u → wf.count u ≤ wf.count v ∧ (wf.count u = wf.count v → v ≤ u) := by
  by_cases h : ∃ x ∈ wf, 0 < x
  · right
    obtain ⟨x, hx, h0⟩ := h
    have hxm : x ∈ wf.filter (0 < ·) := List.mem_filter.2 ⟨hx, by simpa using h0⟩
    have hne : (wf.filter (0 < ·)).isEmpty = false := by
      rw [Bool.eq_false_iff]; intro hn
      rw [List.isEmpty_iff] at hn
      rw [hn] at hxm; cases hxm
    have hrange : ∀ u ∈ wf, 0 < u → u.toNat ∈ List.range (((wf.filter (0 < ·)).foldl max 0).toNat + 1) := by
      intro u hu hp
      have := (foldl_max_ge (wf.filter (0 < ·)) 0).2 u (List.mem_filter.2 ⟨hu, by simpa using hp⟩)
      rw [List.mem_range]; omega
    have hcount : ∀ u : Int, 0 < u → (wf.filter (0 < ·)).count u = wf.count u := by
      intro u hu
      exact List.count_filter (by simpa using hu)
    have hcount0 : ∀ u : Int, ¬ 0 < u → (wf.filter (0 < ·)).count u = 0 := by
      intro u hu
      apply List.count_eq_zero.2
      intro hm
      have := (List.mem_filter.1 hm).2
      exact hu (by simpa using this)
    have hl : List.range (((wf.filter (0 < ·)).foldl max 0).toNat + 1) ≠ [] := by
      intro hn; have := congrArg List.length hn; simp at this
    obtain ⟨m1, m2⟩ := mostFrequent_mem (wf.filter (0 < ·)) _ hl
    have m3 := mostFrequent_first (wf.filter (0 < ·)) _ List.pairwise_lt_range hl
    have hb : wfMode wf = mostFrequent (wf.filter (0 < ·)) (List.range (((wf.filter (0 < ·)).foldl max 0).toNat + 1)) := by
      rw [wfMode, hne]; rfl
    rw [← hb] at m1 m2 m3
    have hpos : 0 < ((wfMode wf : Nat) : Int) := by
      by_contra hn
      have h1 := m2 x.toNat (hrange x hx h0)
      rw [hcount0 _ hn] at h1
      rw [show ((x.toNat : Nat) : Int) = x by omega, hcount x h0] at h1
      have := List.count_pos_iff.2 hx
      omega
    have hmem : ((wfMode wf : Nat) : Int) ∈ wf := by
      have h1 := m2 x.toNat (hrange x hx h0)
      rw [hcount _ hpos, show ((x.toNat : Nat) : Int) = x by omega, hcount x h0] at h1
      have := List.count_pos_iff.2 hx
      exact List.count_pos_iff.1 (by omega)
    refine ⟨_, hmem, hpos, by simp [baseline], fun u hu hp => ?_⟩
    have h1 := m2 u.toNat (hrange u hu hp)
    have h3 := m3 u.toNat (hrange u hu hp)
    rw [show ((u.toNat : Nat) : Int) = u by omega, hcount u hp, hcount _ hpos] at h1 h3
    exact ⟨h1, fun he => by have := h3 he; omega⟩
  · left
    push Not at h
    refine ⟨h, ?_⟩
    have : (wf.filter (0 < ·)).isEmpty = true := by
      rw [List.isEmpty_iff, List.filter_eq_nil_iff]
      intro x hx; simpa using h x hx
    simp [baseline, wfMode, this]

example : baseline .mode [0, 0, 0, 7, 3, 3, 7, -2, -2, -2] = 3 := by decide +kernel

/-! ### C54: calibration -/

/-- **C54** The calibrated waveform of a sensor is its waveform divided by its gain; sensors with gain zero or negative give zeros; with a number of gains different
from the number of sensors (and from one) the calibration is refused. -/
theorem calibration_spec (gains : List ℚ) (wfs : List (List ℚ)) :
    (gains.length = wfs.length → ∃ out, calibrateWfs gains wfs = .ok out ∧ out.length = wfs.length ∧
      ∀ (i : Nat) (g : ℚ) (wf : List ℚ), gains[i]? = some g → wfs[i]? = some wf →
        out[i]? = some (if 0 < g then wf.map (· / g) else List.replicate wf.length 0)) ∧
    (gains.length ≠ wfs.length → gains.length ≠ 1 → calibrateWfs gains wfs = .error .valueError) := by
  have hc : ∀ (g : ℚ) (wf : List ℚ), calibrateWf g wf = if 0 < g then wf.map (· / g) else List.replicate wf.length 0 := by
    intro g wf
    unfold calibrateWf
    by_cases hg : 0 < g
    · simp [hg]
    · simp only [if_neg hg]
      rw [List.eq_replicate_iff]
      simp
  constructor
  · intro hl
    have e : calibrateWfs gains wfs = .ok (List.zipWith calibrateWf gains wfs) := by
      unfold calibrateWfs
      split
      · rename_i g
        obtain ⟨wf, rfl⟩ := List.length_eq_one_iff.1 hl.symm
        rfl
      · rw [if_neg (by simpa using hl)]
    refine ⟨_, e, by simp [hl], fun i g wf h1 h2 => ?_⟩
    rw [List.getElem?_zipWith, h1, h2]
    simp [hc]
  · intro hl h1
    unfold calibrateWfs
    split
    · simp at h1
    · rw [if_pos hl]

example : calibrateWfs [2, 0, -1] [[4, 6], [1, 1], [3, 3]] = .ok [[2, 3], [0, 0], [0, 0]] ∧ calibrateWfs [2, 0] [[1], [2], [3]] = .error .valueError := by
  decide +kernel

/-- **C54** Baseline subtraction and calibration: a sample of sensor `i` is zero if the gain is not positive or the sample was zero, and
`(x - baseline) / gain` otherwise. -/
theorem subtract_and_calibrate (m : BlsMode) (gains : List ℚ) (wfs : List (List Int)) (hl : gains.length = wfs.length) :
    ∃ out, subtractAndCalibrate m gains wfs = .ok out ∧ ∀ (i j : Nat) (g : ℚ) (wf : List Int) (x : Int),
      gains[i]? = some g → wfs[i]? = some wf → wf[j]? = some x →
      ∃ row, out[i]? = some row ∧ row.length = wf.length ∧ row[j]? = some (if 0 < g ∧ x ≠ 0 then (x - baseline m wf) / g else 0) := by
  obtain ⟨out, h1, _, h3⟩ := (calibration_spec gains (wfs.map (subtractBaseline m))).1 (by simpa using hl)
  refine ⟨out, h1, fun i j g wf x hg hwf hx => ?_⟩
  have hs := h3 i g (subtractBaseline m wf) hg (by rw [List.getElem?_map, hwf]; rfl)
  refine ⟨_, hs, ?_, ?_⟩
  · split <;> simp [subtractBaseline]
  · have hj := (List.getElem?_eq_some_iff.1 hx).1
    by_cases h0 : 0 < g
    · rw [if_pos h0, List.getElem?_map, (baseline_subtraction m wf j).2 x hx]
      by_cases hx0 : x = 0 <;> simp [hx0, h0]
    · rw [if_neg h0, List.getElem?_replicate]
      simp [h0, subtractBaseline, hj]

example : subtractAndCalibrate .mode [2, 0] [[3, 3, 7, 0], [1, 2, 3, 4]] = .ok [[0, 0, 2, 0], [0, 0, 0, 0]] := by decide +kernel

/-- **C54** The moving average of sample `i` is the sum of the `n` samples up to `i` (less at the start) divided by `n`. -/
theorem maw_get (n : Nat) (wf : List ℚ) (i : Nat) (hi : i < wf.length) :
    (maw n wf)[i]? = some (chargeIn wf (i + 1 - n) (i + 1) / n) := by
  simp [maw, List.getElem?_range hi, chargeIn_eq]

/-- **C54** `calibrate_pmts`: calibrated waveforms, those of the samples at least `thr` above the moving average of the uncalibrated waveform, and the sums over
the sensors of both. -/
theorem calibrate_pmts_spec (gains : List ℚ) (n : Nat) (thr : ℚ) (cwfs : Mat) (hn : 0 < n) (hl : gains.length = cwfs.rows.length) :
    ∃ cal above sum sumAbove, calibratePmts gains n thr cwfs = .ok (cal, above, sum, sumAbove) ∧
      calibrateWfs gains cwfs.rows = .ok cal ∧
      (∀ (i j : Nat) (wf c : List ℚ) (x y : ℚ), cwfs.rows[i]? = some wf → cal[i]? = some c → wf[j]? = some x → c[j]? = some y →
        ∃ row, above[i]? = some row ∧ row[j]? = some (if chargeIn wf (j + 1 - n) (j + 1) / n + thr ≤ x then y else 0)) ∧
      (∀ j < cwfs.ncols, sum[j]? = some ((cal.map fun c => c.getD j 0).sum) ∧ sumAbove[j]? = some ((above.map fun c => c.getD j 0).sum)) := by
  obtain ⟨cal, h1, h2, _⟩ := (calibration_spec gains cwfs.rows).1 hl
  refine ⟨cal, _, _, _, by rw [calibratePmts, if_neg (by omega), h1], h1, ?_, ?_⟩
  · intro i j wf c x y hwf' hc hx hy
    refine ⟨_, by rw [List.getElem?_zipWith, hwf', hc], ?_⟩
    have hj := (List.getElem?_eq_some_iff.1 hx).1
    unfold aboveMaw
    rw [List.getElem?_zipWith]
    have hz : (wf.zip (maw n wf))[j]? = some (x, chargeIn wf (j + 1 - n) (j + 1) / n) := by
      rw [List.getElem?_zip_eq_some]; exact ⟨hx, maw_get n wf j hj⟩
    rw [hz, hy]
  · intro j hj
    rw [Mat.sumSensors_getElem?, Mat.sumSensors_getElem?]
    exact ⟨if_pos hj, if_pos hj⟩

example : calibratePmts [2, 1] 2 1 ⟨[[0, 4, 4, 0], [0, 0, 6, 0]], 4⟩ =
    .ok ([[0, 2, 2, 0], [0, 0, 6, 0]], [[0, 2, 0, 0], [0, 0, 6, 0]], [0, 2, 8, 0], [0, 2, 6, 0]) := by decide +kernel

/-- **C54** Subtracting the moving average leaves the waveform minus the average of the last `n` samples; `n = 0` is a `ZeroDivisionError`. -/
theorem subtract_maw_spec (n : Nat) (wf : List ℚ) :
    (n = 0 → subtractMaw n wf = .error .zeroDivision) ∧
    (0 < n → ∃ out, subtractMaw n wf = .ok out ∧ out.length = wf.length ∧
      ∀ (i : Nat) (x : ℚ), wf[i]? = some x → out[i]? = some (x - chargeIn wf (i + 1 - n) (i + 1) / n)) := by
  constructor
  · intro h; simp [subtractMaw, h]
  · intro h
    refine ⟨_, by rw [subtractMaw, if_neg (by omega)], by simp [maw], fun i x hx => ?_⟩
    rw [List.getElem?_zipWith, hx, maw_get n wf i (List.getElem?_eq_some_iff.1 hx).1]

example : subtractMaw 2 [2, 4, 4, 0] = .ok [1, 1, 0, -2] := by decide +kernel

end Verif.Calib
