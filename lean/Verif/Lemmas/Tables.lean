import Verif.Model.PMapsIO
import Verif.Lemmas.Lists
/-!
# Lemmas on tables written by blocks
-/
namespace Verif.PMapsIO

theorem uniqueFrom_append_of_mem {α : Type} [DecidableEq α] :
    ∀ (xs ys seen : List α), (∀ x ∈ xs, x ∈ seen) → uniqueFrom seen (xs ++ ys) = uniqueFrom seen ys := by
  intro xs
  induction xs with
  | nil => intro ys seen _; rfl
  | cons x xs ih =>
    intro ys seen h
    rw [List.cons_append]
    simp only [uniqueFrom]
    rw [if_pos (h x (by simp)), ih ys seen (fun y hy => h y (by simp [hy]))]

theorem mem_uniqueFrom {α : Type} [DecidableEq α] :
    ∀ (xs seen : List α) (x : α), x ∈ uniqueFrom seen xs ↔ x ∈ xs ∧ x ∉ seen := by
  intro xs
  induction xs with
  | nil => simp [uniqueFrom]
  | cons y ys ih =>
    intro seen x
    simp only [uniqueFrom]
    split
    · rename_i hy
      rw [ih]
      constructor
      · rintro ⟨h1, h2⟩; exact ⟨by simp [h1], h2⟩
      · rintro ⟨h1, h2⟩
        rcases List.mem_cons.1 h1 with rfl | h1
        · exact absurd hy h2
        · exact ⟨h1, h2⟩
    · rename_i hy
      rw [List.mem_cons, ih]
      by_cases hxy : x = y
      · subst hxy; simp [hy]
      · simp [hxy]

theorem uniqueFrom_nodup {α : Type} [DecidableEq α] :
    ∀ (xs seen : List α), (uniqueFrom seen xs).Nodup := by
  intro xs
  induction xs with
  | nil => simp [uniqueFrom]
  | cons y ys ih =>
    intro seen
    simp only [uniqueFrom]
    split
    · exact ih _
    · refine List.nodup_cons.2 ⟨?_, ih _⟩
      rw [mem_uniqueFrom]
      simp

theorem mem_unique {α : Type} [DecidableEq α] {xs : List α} {x : α} : x ∈ unique xs ↔ x ∈ xs := by
  simp [unique, mem_uniqueFrom]

theorem unique_nodup {α : Type} [DecidableEq α] (xs : List α) : (unique xs).Nodup := uniqueFrom_nodup xs []

/-- The distinct keys of a table written in non-empty blocks of constant, different keys. -/
theorem uniqueFrom_blocks {α κ : Type} [DecidableEq κ] (f : α → List κ) (g : α → κ) :
    ∀ (xs : List α) (seen : List κ), (∀ a ∈ xs, f a ≠ [] ∧ ∀ k ∈ f a, k = g a) → (xs.map g).Nodup →
      (∀ a ∈ xs, g a ∉ seen) → uniqueFrom seen (xs.flatMap f) = xs.map g := by
  intro xs
  induction xs with
  | nil => intros; rfl
  | cons a xs ih =>
    intro seen h hnd hs
    obtain ⟨hne, hk⟩ := h a (by simp)
    rw [List.map_cons, List.nodup_cons] at hnd
    rw [List.flatMap_cons]
    obtain ⟨k, ks, hf⟩ : ∃ k ks, f a = k :: ks := List.exists_cons_of_ne_nil hne
    rw [hf] at hk ⊢
    have hka : k = g a := hk k (by simp)
    rw [List.cons_append]
    simp only [uniqueFrom]
    rw [if_neg (by rw [hka]; exact hs a (by simp)),
      uniqueFrom_append_of_mem ks _ _ (fun x hx => by rw [hk x (by simp [hx]), hka]; simp),
      ih _ (fun b hb => h b (by simp [hb])) hnd.2 ?_, hka, List.map_cons]
    intro b hb hc
    rcases List.mem_cons.1 hc with hc | hc
    · exact hnd.1 (by rw [← hka, ← hc]; exact List.mem_map_of_mem hb)
    · exact hs b (by simp [hb]) hc

theorem unique_blocks {α κ : Type} [DecidableEq κ] (f : α → List κ) (g : α → κ) (xs : List α)
    (h : ∀ a ∈ xs, f a ≠ [] ∧ ∀ k ∈ f a, k = g a) (hnd : (xs.map g).Nodup) :
    unique (xs.flatMap f) = xs.map g := uniqueFrom_blocks f g xs [] h hnd (by simp)

/-- Selecting one key in a table written in blocks of constant, different keys gives the block. -/
theorem filter_blocks {α β κ : Type} [DecidableEq κ] (key : β → κ) (f : α → List β) (g : α → κ) :
    ∀ (xs : List α), (∀ a ∈ xs, ∀ b ∈ f a, key b = g a) → (xs.map g).Nodup → ∀ a ∈ xs,
      (xs.flatMap f).filter (fun b => key b == g a) = f a := by
  intro xs
  induction xs with
  | nil => simp
  | cons c xs ih =>
    intro h hnd a ha
    rw [List.map_cons, List.nodup_cons] at hnd
    rw [List.flatMap_cons, List.filter_append]
    rcases List.mem_cons.1 ha with rfl | ha
    · have h1 : (f a).filter (fun b => key b == g a) = f a := by
        rw [List.filter_eq_self]
        intro b hb; simp [h a (by simp) b hb]
      have h2 : (xs.flatMap f).filter (fun b => key b == g a) = [] := by
        rw [List.filter_eq_nil_iff]
        intro b hb
        obtain ⟨d, hd, hbd⟩ := List.mem_flatMap.1 hb
        rw [h d (by simp [hd]) b hbd]
        intro hc
        exact hnd.1 (by rw [← (beq_iff_eq.1 hc)]; exact List.mem_map_of_mem hd)
      rw [h1, h2, List.append_nil]
    · have h1 : (f c).filter (fun b => key b == g a) = [] := by
        rw [List.filter_eq_nil_iff]
        intro b hb
        rw [h c (by simp) b hb]
        intro hc
        exact hnd.1 (by rw [beq_iff_eq.1 hc]; exact List.mem_map_of_mem ha)
      rw [h1, List.nil_append]
      exact ih (fun d hd => h d (by simp [hd])) hnd.2 a ha

/-- Selecting a key that no block has gives nothing. -/
theorem filter_no_block {α β κ : Type} [DecidableEq κ] (key : β → κ) (f : α → List β) (g : α → κ)
    (xs : List α) (h : ∀ a ∈ xs, ∀ b ∈ f a, key b = g a) (k : κ) (hk : ∀ a ∈ xs, g a ≠ k) :
    (xs.flatMap f).filter (fun b => key b == k) = [] := by
  rw [List.filter_eq_nil_iff]
  intro b hb
  obtain ⟨d, hd, hbd⟩ := List.mem_flatMap.1 hb
  rw [h d hd b hbd]
  simpa using hk d hd

theorem length_flatten_const {α : Type} {n : Nat} :
    ∀ (rows : List (List α)), (∀ r ∈ rows, r.length = n) → rows.flatten.length = rows.length * n := by
  intro rows
  induction rows with
  | nil => simp
  | cons r rows ih =>
    intro h
    rw [List.flatten_cons, List.length_append, ih (fun x hx => h x (by simp [hx])), h r (by simp),
      List.length_cons]
    ring

theorem pySlice_flatten {n : Nat} :
    ∀ (rows : List (List ℚ)), (∀ r ∈ rows, r.length = n) →
      (List.range rows.length).map (fun i => pySlice (i * n) ((i + 1) * n) rows.flatten) = rows := by
  intro rows
  induction rows with
  | nil => simp
  | cons r rows ih =>
    intro h
    have hr : r.length = n := h r (by simp)
    rw [List.length_cons, List.range_succ_eq_map, List.map_cons, List.map_map, List.flatten_cons]
    congr 1
    · simp [pySlice, ← hr]
    · conv => rhs; rw [← ih (fun x hx => h x (by simp [hx]))]
      refine List.map_congr_left fun i _ => ?_
      simp only [Function.comp, pySlice]
      have h1 : (i + 1) * n = r.length + i * n := by rw [hr]; ring
      have h2 : (i + 1 + 1) * n - (i + 1) * n = n := by
        rw [← Nat.sub_mul]; simp
      have h3 : (i + 1) * n - i * n = n := by rw [← Nat.sub_mul]; simp
      rw [Nat.succ_eq_add_one, h2, h3, h1, List.drop_append,
        List.drop_eq_nil_of_le (Nat.le_add_right _ _), List.nil_append, Nat.add_sub_cancel_left]

/-- Reshaping the concatenated rows gives the rows back. -/
theorem reshape_flatten {n : Nat} (rows : List (List ℚ)) (h : ∀ r ∈ rows, r.length = n) :
    reshape rows.length n rows.flatten = .ok ⟨rows, n⟩ := by
  unfold reshape
  rw [if_neg (by rw [length_flatten_const rows h]; simp), pySlice_flatten rows h]

end Verif.PMapsIO
