import Verif.Numpy
import Mathlib.Data.List.Forall2
/-!
# Helper lemmas on lists and on `Except`
-/
namespace Verif

theorem mapM_ok_iff {α β : Type} {f : α → Except PyErr β} {xs : List α} {ys : List β} :
    xs.mapM f = .ok ys ↔ List.Forall₂ (fun x y => f x = .ok y) xs ys := by
  induction xs generalizing ys with
  | nil =>
    simp only [List.mapM_nil, List.forall₂_nil_left_iff]
    constructor
    · intro h; cases h; rfl
    · rintro rfl; rfl
  | cons x xs ih =>
    rw [List.mapM_cons]
    constructor
    · intro h
      cases hx : f x with
      | error e => rw [hx] at h; cases h
      | ok y =>
        rw [hx] at h
        cases hxs : xs.mapM f with
        | error e => simp only [hxs] at h; cases h
        | ok zs =>
          simp only [hxs] at h
          cases h
          exact List.Forall₂.cons hx (ih.1 hxs)
    · intro h
      cases h with
      | cons h1 h2 =>
        rw [h1, ih.2 h2]; rfl

theorem mapM_ok {α β : Type} {f : α → Except PyErr β} {xs : List α} (h : ∀ x ∈ xs, ∃ y, f x = .ok y) :
    ∃ ys, xs.mapM f = .ok ys := by
  induction xs with
  | nil => exact ⟨[], rfl⟩
  | cons x xs ih =>
    obtain ⟨y, hy⟩ := h x List.mem_cons_self
    obtain ⟨ys, hys⟩ := ih fun z hz => h z (List.mem_cons_of_mem _ hz)
    exact ⟨y :: ys, by rw [List.mapM_cons, hy, hys]; rfl⟩

theorem forall₂_getElem? {α β : Type} {R : α → β → Prop} {xs : List α} {ys : List β} (h : List.Forall₂ R xs ys)
    (i : Nat) (x : α) (y : β) (hx : xs[i]? = some x) (hy : ys[i]? = some y) : R x y := by
  induction h generalizing i with
  | nil => simp at hx
  | cons h1 _ ih =>
    cases i with
    | zero => simp at hx hy; subst hx hy; exact h1
    | succ i => exact ih i (by simpa using hx) (by simpa using hy)

theorem mem_pySlice {α : Type} {a b : Nat} {xs : List α} {x : α} :
    x ∈ pySlice a b xs ↔ ∃ j, a ≤ j ∧ j < b ∧ xs[j]? = some x := by
  rw [List.mem_iff_getElem?]
  constructor
  · rintro ⟨i, hi⟩
    rw [pySlice_getElem?] at hi
    split at hi
    · exact ⟨a + i, by omega, by omega, hi⟩
    · cases hi
  · rintro ⟨j, h1, h2, h3⟩
    refine ⟨j - a, ?_⟩
    rw [pySlice_getElem?, show a + (j - a) = j by omega, if_pos h2, h3]

end Verif
