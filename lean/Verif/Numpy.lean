import Verif.Base
import Mathlib.Data.List.GetD
/-!
# NumPy primitives used by the models

Behaviour of the third-party primitives (NumPy) re-implemented on lists.  1-D arrays are lists, 2-D
arrays are `Mat`.
-/
namespace Verif

/-- Python/NumPy slicing `xs[a:b]` with non-negative bounds (out-of-range bounds are truncated). -/
def pySlice {α : Type} (a b : Nat) (xs : List α) : List α := (xs.drop a).take (b - a)

/-- `np.where(mask)[0]`, with the mask given by a predicate on the elements: increasing list of the
positions satisfying it. -/
def whereIdx {α : Type} (p : α → Bool) (xs : List α) : List Nat :=
  (List.range xs.length).filter fun i => (xs[i]?).any p

/-- `np.diff` of an integer array. -/
def npDiff (xs : List Nat) : List Int := List.zipWith (fun b a => (b : Int) - (a : Int)) xs.tail xs

/-- `np.split(xs, cuts)`: `xs[0:c0], xs[c0:c1], …, xs[ck:]`. -/
def npSplitFrom {α : Type} (xs : List α) (prev : Nat) : List Nat → List (List α)
  | [] => [xs.drop prev]
  | c :: cs => pySlice prev c xs :: npSplitFrom xs c cs
def npSplit {α : Type} (xs : List α) (cuts : List Nat) : List (List α) := npSplitFrom xs 0 cuts

/-- `xs[indices]` (fancy indexing): `IndexError` if some index is out of range. -/
def npTake {α : Type} (xs : List α) (indices : List Nat) : Except PyErr (List α) :=
  indices.mapM fun i => match xs[i]? with
    | some x => .ok x
    | none => .error .indexError

/-- A 2-D array: rows are sensors, columns are samples.  The number of columns is kept because it is
defined also when there are no rows. -/
structure Mat where
  rows : List (List ℚ)
  ncols : Nat
deriving DecidableEq, Repr

/-- All rows have the declared number of columns. -/
def Mat.WF (m : Mat) : Prop := ∀ r ∈ m.rows, r.length = m.ncols

/-- `m[:, a:b]` -/
def Mat.slice (m : Mat) (a b : Nat) : Mat := ⟨m.rows.map (pySlice a b), min b m.ncols - a⟩
/-- `np.sum(m, axis=0)` -/
def Mat.sumSensors (m : Mat) : List ℚ :=
  (List.range m.ncols).map fun j => (m.rows.map fun r => r.getD j 0).sum
/-- `np.sum(m, axis=1)` -/
def Mat.sumTimes (m : Mat) : List ℚ := m.rows.map List.sum
/-- `np.concatenate([np.zeros((n, k)), m], axis=1)` -/
def Mat.padLeft (k : Nat) (m : Mat) : Mat := ⟨m.rows.map (List.replicate k 0 ++ ·), k + m.ncols⟩

/-! ### Basic facts -/

theorem pySlice_length {α : Type} (a b : Nat) (xs : List α) :
    (pySlice a b xs).length = min b xs.length - a := by
  simp only [pySlice, List.length_take, List.length_drop]; omega

theorem pySlice_getElem? {α : Type} (a b : Nat) (xs : List α) (i : Nat) :
    (pySlice a b xs)[i]? = if a + i < b then xs[a + i]? else none := by
  simp only [pySlice, List.getElem?_take, List.getElem?_drop]
  by_cases h : a + i < b
  · have : i < b - a := by omega
    simp [h, this]
  · have : ¬ i < b - a := by omega
    simp [h, this]

theorem pySlice_append {α : Type} {a b c : Nat} (h1 : a ≤ b) (h2 : b ≤ c) (xs : List α) :
    pySlice a b xs ++ pySlice b c xs = pySlice a c xs := by
  apply List.ext_getElem?
  intro i
  rw [List.getElem?_append, pySlice_getElem?, pySlice_getElem?, pySlice_getElem?, pySlice_length]
  split
  · have h3 : a + i < b := by omega
    have h4 : a + i < c := by omega
    simp [h3, h4]
  · rename_i h
    by_cases hb : b ≤ xs.length
    · have : b + (i - (min b xs.length - a)) = a + i := by omega
      rw [this]
    · have hn : xs.length ≤ a + i := by omega
      have hn' : xs.length ≤ b + (i - (min b xs.length - a)) := by omega
      simp [List.getElem?_eq_none hn, List.getElem?_eq_none hn']

theorem pySlice_all {α : Type} {b : Nat} (xs : List α) (h : xs.length ≤ b) : pySlice 0 b xs = xs := by
  simp [pySlice, List.take_of_length_le h]

theorem pySlice_to_end {α : Type} {a b : Nat} (xs : List α) (h : xs.length ≤ b) : pySlice a b xs = xs.drop a := by
  rw [pySlice, List.take_of_length_le (by simp; omega)]

theorem whereIdx_mem {α : Type} {p : α → Bool} {xs : List α} {i : Nat} :
    i ∈ whereIdx p xs ↔ ∃ x, xs[i]? = some x ∧ p x = true := by
  simp only [whereIdx, List.mem_filter, List.mem_range]
  constructor
  · rintro ⟨h, h2⟩
    refine ⟨xs[i], List.getElem?_eq_getElem h, ?_⟩
    simpa [List.getElem?_eq_getElem h] using h2
  · rintro ⟨x, h, h2⟩
    exact ⟨(List.getElem?_eq_some_iff.1 h).1, by simp [h, h2]⟩

theorem whereIdx_sorted {α : Type} (p : α → Bool) (xs : List α) : (whereIdx p xs).Pairwise (· < ·) :=
  List.Pairwise.filter _ List.pairwise_lt_range

theorem whereIdx_nil {α : Type} (p : α → Bool) : whereIdx p ([] : List α) = [] := rfl

theorem whereIdx_cons {α : Type} (p : α → Bool) (x : α) (xs : List α) :
    whereIdx p (x :: xs) = (if p x then [0] else []) ++ (whereIdx p xs).map (· + 1) := by
  simp only [whereIdx, List.length_cons, List.range_succ_eq_map, List.filter_cons, List.getElem?_cons_zero,
    Option.any_some, List.filter_map]
  have : (fun i => ((x :: xs)[i]?).any p) ∘ Nat.succ = fun i => (xs[i]?).any p := by
    funext i; simp
  rw [this]
  split <;> simp

theorem whereIdx_map {α β : Type} (p : β → Bool) (f : α → β) (xs : List α) :
    whereIdx p (xs.map f) = whereIdx (fun x => p (f x)) xs := by
  induction xs with
  | nil => rfl
  | cons x xs ih => simp [whereIdx_cons, ih]

theorem npTake_ok {α : Type} (xs : List α) (is : List Nat) (h : ∀ i ∈ is, i < xs.length) :
    ∃ ys, npTake xs is = .ok ys ∧ ys.length = is.length ∧ ∀ (k i : Nat), is[k]? = some i → ys[k]? = xs[i]? := by
  induction is with
  | nil => exact ⟨[], rfl, rfl, by simp⟩
  | cons i is ih =>
    obtain ⟨ys, h1, h2, h3⟩ := ih (fun j hj => h j (List.mem_cons_of_mem _ hj))
    have hi := h i List.mem_cons_self
    refine ⟨xs[i] :: ys, ?_, by simp [h2], ?_⟩
    · simp only [npTake, List.mapM_cons, List.getElem?_eq_getElem hi] at h1 ⊢
      rw [h1]; rfl
    · intro k j hk
      cases k with
      | zero => simp at hk; subst hk; simp [List.getElem?_eq_getElem hi]
      | succ k => simpa using h3 k j (by simpa using hk)

theorem Mat.sumSensors_length (m : Mat) : m.sumSensors.length = m.ncols := by simp [Mat.sumSensors]

theorem Mat.slice_WF {m : Mat} (h : m.WF) (a b : Nat) : (m.slice a b).WF := by
  intro r hr
  simp only [Mat.slice, List.mem_map] at hr ⊢
  obtain ⟨r, hr, rfl⟩ := hr
  rw [pySlice_length, h r hr]

theorem Mat.padLeft_WF {m : Mat} (h : m.WF) (k : Nat) : (m.padLeft k).WF := by
  intro r hr
  simp only [Mat.padLeft, List.mem_map] at hr ⊢
  obtain ⟨r, hr, rfl⟩ := hr
  simp [h r hr]

theorem Mat.sumSensors_getElem? (m : Mat) (j : Nat) :
    m.sumSensors[j]? = if j < m.ncols then some ((m.rows.map fun r => r.getD j 0).sum) else none := by
  by_cases h : j < m.ncols
  · simp [Mat.sumSensors, h]
  · simp [Mat.sumSensors, h]

/-- Slicing commutes with the sum over sensors. -/
theorem Mat.sumSensors_slice (m : Mat) (h : m.WF) (a b : Nat) :
    (m.slice a b).sumSensors = pySlice a b m.sumSensors := by
  apply List.ext_getElem?
  intro j
  rw [pySlice_getElem?, Mat.sumSensors_getElem?, Mat.sumSensors_getElem?]
  simp only [Mat.slice, List.map_map]
  by_cases h1 : a + j < b
  · by_cases h2 : a + j < m.ncols
    · have h3 : j < min b m.ncols - a := by omega
      simp only [h1, h2, h3, if_true, Option.some.injEq]
      congr 1
      apply List.map_congr_left
      intro r _
      simp [List.getD, pySlice_getElem?, h1]
    · have h3 : ¬ j < min b m.ncols - a := by omega
      simp [h2, h3]
  · have h3 : ¬ j < min b m.ncols - a := by omega
    simp [h1, h3]

theorem Mat.sumSensors_padLeft (m : Mat) (k : Nat) :
    (m.padLeft k).sumSensors = List.replicate k 0 ++ m.sumSensors := by
  apply List.ext_getElem?
  intro j
  rw [Mat.sumSensors_getElem?]
  simp only [Mat.padLeft, List.map_map]
  by_cases hj : j < k
  · rw [List.getElem?_append_left (by simpa using hj), List.getElem?_replicate, if_pos hj,
      if_pos (by omega)]
    simp only [Option.some.injEq]
    apply List.sum_eq_zero
    intro x hx
    simp only [List.mem_map, Function.comp] at hx
    obtain ⟨r, _, rfl⟩ := hx
    rw [List.getD_append _ _ _ _ (by simpa using hj)]
    simp [List.getD, hj]
  · rw [List.getElem?_append_right (by simpa using hj), List.length_replicate, Mat.sumSensors_getElem?]
    by_cases hj2 : j < k + m.ncols
    · rw [if_pos hj2, if_pos (by omega)]
      simp only [Option.some.injEq]
      congr 1
      apply List.map_congr_left
      intro r _
      simp only [Function.comp]
      rw [List.getD_append_right _ _ _ _ (by simpa using hj), List.length_replicate]
    · rw [if_neg hj2, if_neg (by omega)]

/-- The total charge is the same summed in either order. -/
theorem Mat.sum_sumSensors (m : Mat) (h : m.WF) : m.sumSensors.sum = m.sumTimes.sum := by
  obtain ⟨rows, n⟩ := m
  induction rows with
  | nil => simp [Mat.sumSensors, Mat.sumTimes, List.map_const']
  | cons r rows ih =>
    have hr : r.length = n := h r (by simp)
    have := ih (fun q hq => h q (List.mem_cons_of_mem _ hq))
    simp only [Mat.sumSensors, Mat.sumTimes, List.map_cons, List.sum_cons] at this ⊢
    rw [List.sum_map_add, this]
    congr 1
    subst hr
    have : (List.range r.length).map (fun j => r.getD j 0) = r := by
      apply List.ext_getElem
      · simp
      · intro i h1 h2; simp at h1; simp [h1]
    rw [this]

end Verif
