import Verif.Model.Detsim
import Verif.Props.Hits
import Verif.Props.SamplingMulti
/-!
# Lemmas on waveforms filled by additions
-/
namespace Verif.Detsim

theorem addAt_length (xs : List ℚ) (i : Nat) (v : ℚ) : (addAt xs i v).length = xs.length := by simp [addAt]

theorem addAt_getD (xs : List ℚ) (i j : Nat) (v : ℚ) :
    (addAt xs i v).getD j 0 = xs.getD j 0 + if i = j ∧ i < xs.length then v else 0 := by
  unfold addAt
  rw [List.getD_eq_getElem?_getD, List.getElem?_modify, List.getD_eq_getElem?_getD]
  by_cases hij : i = j
  · subst hij
    by_cases hl : i < xs.length
    · simp [hl]
    · simp [hl]
  · simp [hij]

theorem spreadOne_length (out : List ℚ) (aux : Nat) (v : ℚ) (n : Nat) : (spreadOne out aux v n).length = out.length := by
  unfold spreadOne
  induction n with
  | zero => rfl
  | succ n ih => rw [List.range_succ, List.foldl_append]; simp only [List.foldl_cons, List.foldl_nil, addAt_length, ih]

theorem spreadOne_getD (out : List ℚ) (aux j : Nat) (v : ℚ) (n : Nat) (h : aux + n ≤ out.length) :
    (spreadOne out aux v n).getD j 0 = out.getD j 0 + if aux ≤ j ∧ j < aux + n then v else 0 := by
  induction n with
  | zero => simp only [spreadOne, List.range_zero, List.foldl_nil, Nat.add_zero]; rw [if_neg (show ¬ (aux ≤ j ∧ j < aux) by omega), add_zero]
  | succ n ih =>
    have hs : spreadOne out aux v (n + 1) = addAt (spreadOne out aux v n) (aux + n) v := by
      unfold spreadOne
      rw [List.range_succ, List.foldl_append]; rfl
    rw [hs, addAt_getD, ih (by omega), spreadOne_length]
    by_cases h1 : aux + n = j
    · rw [if_neg (show ¬ (aux ≤ j ∧ j < aux + n) by omega), if_pos (show aux + n = j ∧ aux + n < out.length from ⟨h1, by omega⟩),
        if_pos (show aux ≤ j ∧ j < aux + (n + 1) by omega)]
      ring
    · rw [if_neg (show ¬ (aux + n = j ∧ aux + n < out.length) by omega)]
      by_cases h2 : aux ≤ j ∧ j < aux + n
      · rw [if_pos h2, if_pos (show aux ≤ j ∧ j < aux + (n + 1) by omega), add_zero]
      · rw [if_neg h2, if_neg (show ¬ (aux ≤ j ∧ j < aux + (n + 1)) by omega), add_zero]

theorem sum_window (a n l : Nat) (v : ℚ) :
    ((List.range l).map fun j : Nat => if a ≤ j ∧ j < a + n then v else 0).sum = v * (min n (l - a) : Nat) := by
  induction l with
  | zero => simp
  | succ l ih =>
    rw [List.range_succ, List.map_append, List.sum_append, ih]
    simp only [List.map_cons, List.map_nil, List.sum_cons, List.sum_nil, add_zero]
    by_cases h : a ≤ l ∧ l < a + n
    · rw [if_pos h, show min n (l + 1 - a) = min n (l - a) + 1 by omega]; push_cast; ring
    · rw [if_neg h, show min n (l + 1 - a) = min n (l - a) by omega, add_zero]

theorem sum_map_range {α : Type} (xs : List α) (d : α) (f : α → ℚ) :
    ((List.range xs.length).map fun i : Nat => f (xs.getD i d)).sum = (xs.map f).sum := by
  congr 1
  apply List.ext_getElem?
  intro i
  by_cases h : i < xs.length
  · simp [List.getElem?_range h, List.getElem?_eq_getElem h]
  · simp [List.getElem?_eq_none (not_lt.1 h), h]

/-! ### Matrices -/

/-- `n` rows of `m` samples. -/
def Shape (n m : Nat) (w : List (List ℚ)) : Prop := w.length = n ∧ ∀ s < n, (w.getD s []).length = m

theorem shape_zero (n m : Nat) : Shape n m (List.replicate n (List.replicate m 0)) := by
  refine ⟨by simp, ?_⟩
  intro s hs
  simp [List.getElem?_replicate, hs]

/-- The bin of a deposit: none after the end, the wrapped one before the beginning. -/
def landing (n : Nat) (t : Int) : Option Nat :=
  if (n : Int) ≤ t then none else if 0 ≤ t then some t.toNat else some (t + n).toNat

theorem addDeposit_spec {n m : Nat} {w : List (List ℚ)} {d : Deposit} (hw : Shape m n w) (hd : d.sensor < m) (ht : -(n : Int) ≤ d.tindx) :
    ∃ w', addDeposit n w d = .ok w' ∧ Shape m n w' ∧ ∀ s b : Nat, (w'.getD s []).getD b 0 =
      (w.getD s []).getD b 0 + if d.sensor = s ∧ landing n d.tindx = some b then d.signal else 0 := by
  have key : ∀ k : Nat, k < n → landing n d.tindx = some k →
      Shape m n (w.modify d.sensor fun row => addAt row k d.signal) ∧ ∀ s b : Nat,
      ((w.modify d.sensor fun row => addAt row k d.signal).getD s []).getD b 0 =
      (w.getD s []).getD b 0 + if d.sensor = s ∧ landing n d.tindx = some b then d.signal else 0 := by
    intro k hk hl
    have hrow : ∀ s : Nat, (w.modify d.sensor fun row => addAt row k d.signal).getD s [] =
        if d.sensor = s then addAt (w.getD s []) k d.signal else w.getD s [] := by
      intro s
      rw [List.getD_eq_getElem?_getD, List.getElem?_modify, List.getD_eq_getElem?_getD]
      by_cases hs : d.sensor = s
      · subst hs
        have : d.sensor < w.length := by rw [hw.1]; exact hd
        simp [List.getElem?_eq_getElem this]
      · simp [hs]
    refine ⟨⟨by simp [hw.1], ?_⟩, ?_⟩
    · intro s hs
      rw [hrow]
      split
      · rw [addAt_length]; exact hw.2 s hs
      · exact hw.2 s hs
    · intro s b
      rw [hrow, hl]
      by_cases hs : d.sensor = s
      · rw [if_pos hs, addAt_getD, hw.2 s (by rw [← hs]; exact hd)]
        congr 1
        by_cases hb : k = b
        · rw [if_pos ⟨hb, hk⟩, if_pos ⟨hs, by rw [hb]⟩]
        · rw [if_neg (by rintro ⟨h, _⟩; exact hb h), if_neg (by rintro ⟨_, h⟩; exact hb (Option.some.inj h))]
      · rw [if_neg hs, if_neg (by rintro ⟨h, _⟩; exact hs h), add_zero]
  unfold addDeposit
  by_cases h1 : (n : Int) ≤ d.tindx
  · rw [if_pos h1]
    refine ⟨w, rfl, hw, ?_⟩
    intro s b
    rw [show landing n d.tindx = none by simp [landing, h1]]
    simp
  · rw [if_neg h1]
    by_cases h2 : 0 ≤ d.tindx
    · rw [if_pos h2]
      obtain ⟨h3, h4⟩ := key d.tindx.toNat (by omega) (by simp [landing, h1, h2])
      exact ⟨_, rfl, h3, h4⟩
    · rw [if_neg h2, if_pos (show 0 ≤ d.tindx + n by omega)]
      obtain ⟨h3, h4⟩ := key (d.tindx + n).toNat (by omega) (by simp [landing, h1, h2])
      exact ⟨_, rfl, h3, h4⟩

theorem foldDeposits_spec {n m : Nat} (ds : List Deposit) : ∀ {w : List (List ℚ)}, Shape m n w → (∀ d ∈ ds, d.sensor < m ∧ -(n : Int) ≤ d.tindx) →
    ∃ w', ds.foldlM (addDeposit n) w = .ok w' ∧ Shape m n w' ∧ ∀ s b : Nat, (w'.getD s []).getD b 0 =
      (w.getD s []).getD b 0 + (ds.map fun d => if d.sensor = s ∧ landing n d.tindx = some b then d.signal else 0).sum := by
  induction ds with
  | nil => intro w hw _; exact ⟨w, rfl, hw, by simp⟩
  | cons d ds ih =>
    intro w hw hds
    obtain ⟨w1, h1, h2, h3⟩ := addDeposit_spec hw (hds d List.mem_cons_self).1 (hds d List.mem_cons_self).2
    obtain ⟨w2, h4, h5, h6⟩ := ih h2 (fun d' hd' => hds d' (List.mem_cons_of_mem _ hd'))
    refine ⟨w2, ?_, h5, ?_⟩
    · rw [List.foldlM_cons, h1]; exact h4
    · intro s b
      rw [h6, h3, List.map_cons, List.sum_cons]; ring

theorem foldDeposits_error {n : Nat} (ds : List Deposit) : ∀ (w : List (List ℚ)), (∃ d ∈ ds, d.tindx < -(n : Int)) →
    ds.foldlM (addDeposit n) w = .error .indexError := by
  induction ds with
  | nil => rintro w ⟨d, hd, _⟩; cases hd
  | cons d ds ih =>
    intro w hds
    rw [List.foldlM_cons]
    by_cases hb : d.tindx < -(n : Int)
    · have : addDeposit n w d = .error .indexError := by
        unfold addDeposit
        rw [if_neg (show ¬ (n : Int) ≤ d.tindx by omega), if_neg (show ¬ 0 ≤ d.tindx by omega), if_neg (show ¬ 0 ≤ d.tindx + n by omega)]
      rw [this]; rfl
    · obtain ⟨d', hd', hb'⟩ := hds
      rcases List.mem_cons.1 hd' with rfl | hd'
      · exact absurd hb' hb
      · have hok : ∃ w', addDeposit n w d = .ok w' := by
          unfold addDeposit
          by_cases h1 : (n : Int) ≤ d.tindx
          · exact ⟨w, by rw [if_pos h1]⟩
          · rw [if_neg h1]
            by_cases h2 : 0 ≤ d.tindx
            · exact ⟨_, by rw [if_pos h2]⟩
            · rw [if_neg h2, if_pos (show 0 ≤ d.tindx + n by omega)]; exact ⟨_, rfl⟩
        obtain ⟨w', hw'⟩ := hok
        rw [hw']
        exact ih w' ⟨d', hd', hb'⟩

theorem elTimes_eq {lt : LightTable} {dv bin : ℚ} (hz : 0 < lt.nz) (hg : 0 < lt.elGap) (hv : 0 < dv) (hb : 0 < bin) :
    elTimes lt dv bin = (List.range lt.nz).map fun k : Nat => timeBs lt dv bin * (k + 1 / 2) := by
  have hzq : (0 : ℚ) < lt.nz := by exact_mod_cast hz
  have htb : 0 < timeBs lt dv bin := by unfold timeBs; positivity
  have hgap : lt.elGap / dv / bin = lt.nz * timeBs lt dv bin := by unfold timeBs; field_simp
  unfold elTimes Buffers.arange
  have hn : ⌈(lt.elGap / dv / bin - timeBs lt dv bin / 2) / timeBs lt dv bin⌉ = (lt.nz : Int) := by
    rw [hgap, show (lt.nz * timeBs lt dv bin - timeBs lt dv bin / 2) / timeBs lt dv bin = lt.nz - 1 / 2 by field_simp]
    rw [Int.ceil_eq_iff]
    push_cast
    constructor <;> linarith
  rw [hn, Int.toNat_natCast]
  apply List.map_congr_left
  intro k _
  ring

end Verif.Detsim
