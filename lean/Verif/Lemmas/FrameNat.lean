import Verif.Lemmas.Frame
/-!
# Groups with natural keys
-/
namespace Verif.Frame

/-- Groups by a number that is at least 1. -/
theorem groupBy_nat {R : Type} (key : R → Int) (rows : List R) (h : ∀ r ∈ rows, ∃ q : Nat, key r = (q : Int) + 1) :
    ∃ qs : List Nat, qs.Pairwise (· < ·) ∧ (∀ q, q ∈ qs ↔ ∃ r ∈ rows, key r = (q : Int) + 1) ∧
      groupBy (fun r => [key r]) rows = qs.map fun q : Nat => ([(q : Int) + 1], rows.filter fun r => decide (key r = (q : Int) + 1)) := by
  let num : List Int → Nat := fun k => (k.headD 0).toNat - 1
  have hnum : ∀ k ∈ groupKeys (rows.map fun r => [key r]), k = [(num k : Int) + 1] := by
    intro k hk
    obtain ⟨r, hr, rfl⟩ := List.mem_map.1 (mem_groupKeys.1 hk)
    obtain ⟨q, hq⟩ := h r hr
    have : num [key r] = q := by
      show (key r).toNat - 1 = q
      omega
    rw [this, hq]
  refine ⟨(groupKeys (rows.map fun r => [key r])).map num, ?_, ?_, ?_⟩
  · rw [List.pairwise_map]
    refine List.Pairwise.imp_of_mem ?_ ((groupKeys_sorted (rows.map fun r => [key r])).and (groupKeys_nodup (rows.map fun r => [key r])))
    intro a b ha hb ⟨hle, hne⟩
    rw [hnum a ha, hnum b hb] at hle hne
    have hne' : ((num a : Int) + 1) ≠ (num b : Int) + 1 := fun h => hne (by rw [h])
    rw [lexLe, if_neg hne', decide_eq_true_eq] at hle
    omega
  · intro q
    rw [List.mem_map]
    constructor
    · rintro ⟨k, hk, rfl⟩
      obtain ⟨r, hr, hrk⟩ := List.mem_map.1 (mem_groupKeys.1 hk)
      refine ⟨r, hr, ?_⟩
      have h := hnum k hk
      rw [← hrk] at h ⊢
      exact (List.cons.inj h).1
    · rintro ⟨r, hr, hq⟩
      refine ⟨[(q : Int) + 1], mem_groupKeys.2 (List.mem_map.2 ⟨r, hr, by rw [hq]⟩), ?_⟩
      show ((q : Int) + 1).toNat - 1 = q
      omega
  · rw [groupBy, List.map_map]
    apply List.map_congr_left
    intro k hk
    simp only [Function.comp_apply]
    rw [← hnum k hk]
    congr 1
    apply List.filter_congr
    intro r _
    rw [Bool.eq_iff_iff, decide_eq_true_iff, decide_eq_true_iff]
    constructor
    · intro he; rw [← he] at hk ⊢; have := hnum _ hk; exact (List.cons.inj this).1
    · intro he; rw [he, ← hnum k hk]

end Verif.Frame
