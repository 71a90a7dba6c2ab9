import Mathlib.Algebra.Order.Field.Rat
import Mathlib.Algebra.Order.Field.Basic
import Mathlib.Algebra.Order.BigOperators.Group.List
import Mathlib.Algebra.BigOperators.Ring.List
import Mathlib.Tactic.Linarith
import Mathlib.Tactic.Positivity
import Mathlib.Tactic.FieldSimp
import Mathlib.Tactic.Ring
import Mathlib.Tactic.NormNum
import Mathlib.Data.List.Basic
import Mathlib.Data.List.Chain
import Mathlib.Data.List.Range
/-!
# Common material

Floats are modelled by exact rationals `ℚ` throughout (no rounding, no NaN, no infinities, no
overflow): this is a simplification shared by all numerical models.
-/
namespace Verif

/-- Python exceptions as values: the class name and the message are irrelevant except for the class. -/
inductive PyErr where
  | valueError
  | typeError
  | keyError
  | indexError
  | zeroDivision
  | attributeError
  | assertion
  | other (name : String)
deriving DecidableEq, Repr

/-- `numpy.argmin` on a 1-D array: index of the first minimum (`ValueError` on an empty array). -/
def argmin : List ℚ → Except PyErr Nat
  | [] => .error .valueError
  | x :: xs => match argmin xs with
    | .error _ => .ok 0
    | .ok j => if (xs[j]?).any (· < x) then .ok (j + 1) else .ok 0

/-- `numpy.argmax`: index of the first maximum. -/
def argmax (xs : List ℚ) : Except PyErr Nat := argmin (xs.map (- ·))

theorem argmin_spec {xs : List ℚ} {j : Nat} (h : argmin xs = .ok j) :
    ∃ m, xs[j]? = some m ∧ (∀ x ∈ xs, m ≤ x) ∧ ∀ i < j, ∀ x, xs[i]? = some x → m < x := by
  induction xs generalizing j with
  | nil => simp [argmin] at h
  | cons x xs ih =>
    simp only [argmin] at h
    cases h1 : argmin xs with
    | error e =>
      simp only [h1, Except.ok.injEq] at h
      subst h
      have : xs = [] := by
        cases xs with
        | nil => rfl
        | cons y ys => simp only [argmin] at h1; split at h1 <;> simp_all; split at h1 <;> simp_all
      subst this
      exact ⟨x, by simp, by simp, by simp⟩
    | ok j' =>
      obtain ⟨m, hm, hall, hfirst⟩ := ih h1
      simp only [h1, hm, Option.any_some, decide_eq_true_eq] at h
      split at h
      · rename_i hlt
        simp only [Except.ok.injEq] at h
        subst h
        refine ⟨m, by simpa using hm, ?_, ?_⟩
        · intro y hy
          rcases List.mem_cons.1 hy with rfl | hy
          · exact hlt.le
          · exact hall y hy
        · intro i hi y hy
          cases i with
          | zero => simp at hy; subst hy; exact hlt
          | succ i => exact hfirst i (by omega) y (by simpa using hy)
      · rename_i hlt
        simp only [Except.ok.injEq] at h
        subst h
        refine ⟨x, by simp, ?_, by simp⟩
        intro y hy
        rcases List.mem_cons.1 hy with rfl | hy
        · exact le_refl _
        · exact (not_lt.1 hlt).trans (hall y hy)

theorem argmin_ok {xs : List ℚ} (h : xs ≠ []) : ∃ j, argmin xs = .ok j := by
  cases xs with
  | nil => exact absurd rfl h
  | cons x xs =>
    simp only [argmin]
    split
    · exact ⟨0, rfl⟩
    · split <;> exact ⟨_, rfl⟩

theorem argmax_spec {xs : List ℚ} {j : Nat} (h : argmax xs = .ok j) :
    ∃ m, xs[j]? = some m ∧ (∀ x ∈ xs, x ≤ m) ∧ ∀ i < j, ∀ x, xs[i]? = some x → x < m := by
  obtain ⟨m, h1, h2, h3⟩ := argmin_spec h
  simp only [List.getElem?_map, Option.map_eq_some_iff] at h1
  obtain ⟨a, ha, rfl⟩ := h1
  refine ⟨a, ha, ?_, ?_⟩
  · intro x hx
    have := h2 (-x) (List.mem_map.2 ⟨x, hx, rfl⟩)
    linarith
  · intro i hi x hx
    have := h3 i hi (-x) (by simp [hx])
    linarith

theorem argmax_ok {xs : List ℚ} (h : xs ≠ []) : ∃ j, argmax xs = .ok j :=
  argmin_ok (by simpa using h)

end Verif
