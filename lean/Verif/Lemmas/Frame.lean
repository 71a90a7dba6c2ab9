import Verif.Model.Frame
import Verif.Lemmas.Tables
import Verif.Props.Sources
/-!
# Lemmas on grouping
-/
namespace Verif.Frame
open Verif.PMapsIO (unique mem_unique unique_nodup)

theorem lexLe_total {α : Type} [LinearOrder α] : ∀ a b : List α, lexLe a b = true ∨ lexLe b a = true
  | [], _ => .inl (by simp [lexLe])
  | _ :: _, [] => .inr (by simp [lexLe])
  | a :: as, b :: bs => by
    rcases eq_or_ne a b with rfl | h
    · simpa [lexLe] using lexLe_total as bs
    · simp only [lexLe, if_neg h, if_neg (Ne.symm h), decide_eq_true_eq]
      exact le_total a b

theorem lexLe_antisymm {α : Type} [LinearOrder α] : ∀ {a b : List α}, lexLe a b = true → lexLe b a = true → a = b
  | [], [], _, _ => rfl
  | [], _ :: _, _, h => by simp [lexLe] at h
  | _ :: _, [], h, _ => by simp [lexLe] at h
  | a :: as, b :: bs, h1, h2 => by
    rcases eq_or_ne a b with rfl | h
    · simp only [lexLe, if_true] at h1 h2
      rw [lexLe_antisymm h1 h2]
    · simp only [lexLe, if_neg h, if_neg (Ne.symm h), decide_eq_true_eq] at h1 h2
      exact absurd (le_antisymm h1 h2) h

theorem lexLe_trans {α : Type} [LinearOrder α] : ∀ {a b c : List α}, lexLe a b = true → lexLe b c = true → lexLe a c = true
  | [], _, _, _, _ => by simp [lexLe]
  | _ :: _, [], _, h, _ => by simp [lexLe] at h
  | _ :: _, _ :: _, [], _, h => by simp [lexLe] at h
  | a :: as, b :: bs, c :: cs, h1, h2 => by
    rcases eq_or_ne a b with rfl | h
    · rcases eq_or_ne a c with rfl | h'
      · simp only [lexLe, if_true] at h1 h2 ⊢
        exact lexLe_trans h1 h2
      · simp only [lexLe, if_neg h'] at h2 ⊢
        exact h2
    · rcases eq_or_ne b c with rfl | h'
      · simp only [lexLe, if_neg h] at h1 ⊢
        exact h1
      · simp only [lexLe, if_neg h, if_neg h', decide_eq_true_eq] at h1 h2
        have hlt : a < c := lt_of_lt_of_le (lt_of_le_of_ne h1 h) h2
        simp only [lexLe, if_neg hlt.ne, decide_eq_true_eq]
        exact hlt.le

theorem groupKeys_perm {α : Type} [LinearOrder α] (keys : List (List α)) : (groupKeys keys).Perm (unique keys) := List.perm_insertionSort _ _

theorem mem_groupKeys {α : Type} [LinearOrder α] {keys : List (List α)} {k : List α} : k ∈ groupKeys keys ↔ k ∈ keys := by
  rw [(groupKeys_perm keys).mem_iff, mem_unique]

theorem groupKeys_nodup {α : Type} [LinearOrder α] (keys : List (List α)) : (groupKeys keys).Nodup :=
  (groupKeys_perm keys).nodup_iff.2 (unique_nodup keys)

theorem groupKeys_sorted {α : Type} [LinearOrder α] (keys : List (List α)) : (groupKeys keys).Pairwise fun a b => lexLe a b = true := by
  have : Std.Total (fun a b : List α => lexLe a b = true) := ⟨lexLe_total⟩
  have : IsTrans (List α) (fun a b : List α => lexLe a b = true) := ⟨fun _ _ _ => lexLe_trans⟩
  exact List.pairwise_insertionSort _ _

/-- The keys of the groups depend only on the set of keys. -/
theorem groupKeys_congr {α : Type} [LinearOrder α] {k1 k2 : List (List α)} (h : ∀ k, k ∈ k1 ↔ k ∈ k2) : groupKeys k1 = groupKeys k2 := by
  have hp : (groupKeys k1).Perm (groupKeys k2) := by
    rw [List.perm_ext_iff_of_nodup (groupKeys_nodup _) (groupKeys_nodup _)]
    intro a
    rw [mem_groupKeys, mem_groupKeys, h]
  have : Std.Antisymm (fun a b : List α => lexLe a b = true) := ⟨fun _ _ => lexLe_antisymm⟩
  exact hp.eq_of_pairwise' (groupKeys_sorted k1) (groupKeys_sorted k2)

/-- The groups have all the rows. -/
theorem groupBy_perm {α R : Type} [LinearOrder α] (key : R → List α) (rows : List R) : (((groupBy key rows).map Prod.snd).flatten).Perm rows := by
  have e : (groupBy key rows).map Prod.snd = (groupKeys (rows.map key)).map fun k => rows.filter fun r => decide (key r = k) := by
    simp [groupBy]
  rw [e]
  exact Sources.perm_groups key _ rows (groupKeys_nodup _) (fun r hr => mem_groupKeys.2 (List.mem_map_of_mem hr))

theorem mem_groupBy {α R : Type} [LinearOrder α] {key : R → List α} {rows : List R} {g : List α × List R} (h : g ∈ groupBy key rows) :
    g.2 = rows.filter (fun r => decide (key r = g.1)) ∧ g.2 ≠ [] ∧ ∀ r ∈ g.2, key r = g.1 := by
  obtain ⟨k, hk, rfl⟩ := List.mem_map.1 h
  obtain ⟨r, hr, he⟩ := List.mem_map.1 (mem_groupKeys.1 hk)
  refine ⟨rfl, ?_, ?_⟩
  · intro h0
    have : r ∈ rows.filter fun r => decide (key r = k) := List.mem_filter.2 ⟨hr, by simp [he]⟩
    rw [show rows.filter (fun r => decide (key r = k)) = [] from h0] at this
    cases this
  · intro r' hr'
    simpa using (List.mem_filter.1 hr').2

theorem firstValid_some {β : Type} {v : β} {vals : List (Option β)} (h : ∀ w ∈ vals, w = some v ∨ w = none) (hm : some v ∈ vals) : firstValid vals = some v := by
  induction vals with
  | nil => cases hm
  | cons w ws ih =>
    rcases h w List.mem_cons_self with rfl | rfl
    · simp [firstValid]
    · have : firstValid (none :: ws) = firstValid ws := by simp [firstValid]
      rw [this]
      exact ih (fun w hw => h w (List.mem_cons_of_mem _ hw)) (by simpa using hm)

theorem firstValid_none {β : Type} {vals : List (Option β)} (h : ∀ w ∈ vals, w = none) : firstValid vals = none := by
  induction vals with
  | nil => rfl
  | cons w ws ih =>
    have : w = none := h w List.mem_cons_self
    subst this
    have e : firstValid (none :: ws) = firstValid ws := by simp [firstValid]
    rw [e]
    exact ih fun w hw => h w (List.mem_cons_of_mem _ hw)

theorem ffill_length {β : Type} : ∀ (p : Option β) (vals : List (Option β)), (ffill p vals).length = vals.length
  | _, [] => rfl
  | _, some _ :: rest => by simp [ffill, ffill_length]
  | _, none :: rest => by simp [ffill, ffill_length]

theorem bfill_length {β : Type} : ∀ (vals : List (Option β)), (bfill vals).length = vals.length
  | [] => rfl
  | some _ :: rest => by simp [bfill, bfill_length]
  | none :: rest => by simp [bfill, bfill_length]

/-- Filling a column with a single value. -/
theorem fill_const {β : Type} {v : β} {vals : List (Option β)} (h : ∀ w ∈ vals, w = some v ∨ w = none) (hm : some v ∈ vals) :
    bfill (ffill none vals) = List.replicate vals.length (some v) := by
  have hf : ∀ vals : List (Option β), (∀ w ∈ vals, w = some v ∨ w = none) → ffill (some v) vals = List.replicate vals.length (some v) := by
    intro vals
    induction vals with
    | nil => intro _; rfl
    | cons w ws ih =>
      intro h
      have := ih fun w hw => h w (List.mem_cons_of_mem _ hw)
      rcases h w List.mem_cons_self with rfl | rfl <;> simp [ffill, this, List.replicate_succ]
  have hb : ∀ n, bfill (List.replicate n (some v)) = List.replicate n (some v) := by
    intro n
    induction n with
    | zero => rfl
    | succ n ih => simp [List.replicate_succ, bfill, ih]
  induction vals with
  | nil => cases hm
  | cons w ws ih =>
    have h' : ∀ w ∈ ws, w = some v ∨ w = none := fun w hw => h w (List.mem_cons_of_mem _ hw)
    rcases h w List.mem_cons_self with rfl | rfl
    · simp [ffill, bfill, hf ws h', hb, List.replicate_succ]
    · have hm' : some v ∈ ws := by simpa using hm
      have hfirst : firstValid (ffill none ws) = some v := by
        have hall : ∀ (p : Option β) (l : List (Option β)), (p = some v ∨ p = none) → (∀ w ∈ l, w = some v ∨ w = none) → ∀ w ∈ ffill p l, w = some v ∨ w = none := by
          intro p l
          induction l generalizing p with
          | nil => intro _ _ w hw; simp [ffill] at hw
          | cons u us ihu =>
            intro hp hl w hw
            rcases hl u List.mem_cons_self with rfl | rfl
            · simp only [ffill, List.mem_cons] at hw
              rcases hw with rfl | hw
              · exact .inl rfl
              · exact ihu _ (.inl rfl) (fun w hw => hl w (List.mem_cons_of_mem _ hw)) w hw
            · simp only [ffill, List.mem_cons] at hw
              rcases hw with rfl | hw
              · exact hp
              · exact ihu _ hp (fun w hw => hl w (List.mem_cons_of_mem _ hw)) w hw
        have hmem : ∀ (p : Option β) (l : List (Option β)), some v ∈ l → some v ∈ ffill p l := by
          intro p l
          induction l generalizing p with
          | nil => intro h; cases h
          | cons u us ihu =>
            intro h
            cases u with
            | none => exact List.mem_cons_of_mem _ (ihu _ (by simpa using h))
            | some u =>
              rcases List.mem_cons.1 h with h | h
              · simp only [ffill, List.mem_cons]; exact .inl h
              · exact List.mem_cons_of_mem _ (ihu _ h)
        exact firstValid_some (hall none ws (.inr rfl) h') (hmem none ws hm')
      simp [ffill, bfill, hfirst, ih h' hm', List.replicate_succ]

end Verif.Frame
