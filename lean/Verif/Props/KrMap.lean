import Verif.Props.PaolinaTracks
import Verif.Spec.KrMap
import Verif.Lemmas.Frame
import Verif.Lemmas.Edges
import Verif.Lemmas.Lists
/-!
# C74: production of krypton maps
-/
namespace Verif.KrMap
open Verif.Frame
open Verif.Voxels (linspace searchRight searchRight_eq linspace_sorted lt_searchRight)
open Verif.Psf (within)

theorem within_iff {x lo hi : ℚ} : within x lo hi = true ↔ lo ≤ x ∧ x < hi := by simp [within]

theorem linspace_get {a b : ℚ} {n k : Nat} (h : k ≤ n) : (linspace a b n)[k]? = some (a + k * ((b - a) / n)) := by
  rw [linspace, List.getElem?_map, List.getElem?_range (by omega)]
  rfl

/-- The index of `np.digitize` in the range. -/
theorem digitize_iff {r : ℚ × ℚ} {n : Nat} (hr : r.1 < r.2) (hn : 0 < n) {v : ℚ} (hv : r.1 ≤ v ∧ v < r.2) (k : Nat) :
    ((searchRight (linspace r.1 r.2 n) v : Int) - 1 = k) ↔ (k < n ∧ InPart r n k v) := by
  have hs : (linspace r.1 r.2 n).Pairwise (· ≤ ·) := (linspace_sorted hr hn).imp fun h => h.le
  have hn' : (n : ℚ) ≠ 0 := by exact_mod_cast hn.ne'
  have hlast : r.1 + (n : ℚ) * ((r.2 - r.1) / n) = r.2 := by field_simp; ring
  constructor
  · intro h
    have hk : searchRight (linspace r.1 r.2 n) v = k + 1 := by omega
    have h1 : k < searchRight (linspace r.1 r.2 n) v := by omega
    obtain ⟨a, ha, hav⟩ := (lt_searchRight hs v k).1 h1
    have hkn : k < n := by
      by_contra hc
      have hlen : k < (linspace r.1 r.2 n).length := (List.getElem?_eq_some_iff.1 ha).1
      rw [linspace, List.length_map, List.length_range] at hlen
      have : k = n := by omega
      subst this
      rw [linspace_get (le_refl _), Option.some.injEq, hlast] at ha
      rw [← ha] at hav
      linarith [hv.2]
    refine ⟨hkn, ?_, ?_⟩
    · rw [linspace_get hkn.le, Option.some.injEq] at ha
      rw [ha]; exact hav
    · by_contra hc
      have : k + 1 < searchRight (linspace r.1 r.2 n) v := by
        rw [lt_searchRight hs]
        refine ⟨_, linspace_get (by omega), ?_⟩
        push_cast
        exact not_lt.1 hc
      omega
  · rintro ⟨hkn, h1, h2⟩
    have := searchRight_eq hs (linspace_get (a := r.1) (b := r.2) hkn.le) h1 (fun b hb => by
      rw [linspace_get (by omega), Option.some.injEq] at hb
      rw [← hb]
      push_cast
      exact h2)
    omega

/-- A value of a part is in the range. -/
theorem inPart_range {r : ℚ × ℚ} {n k : Nat} (hr : r.1 < r.2) (hk : k < n) {v : ℚ} (h : InPart r n k v) : r.1 ≤ v ∧ v < r.2 := by
  obtain ⟨h1, h2⟩ := h
  have hn : (0 : ℚ) < n := by exact_mod_cast (by omega : 0 < n)
  have hw : 0 < (r.2 - r.1) / n := div_pos (by linarith) hn
  have hlast : r.1 + (n : ℚ) * ((r.2 - r.1) / n) = r.2 := by field_simp; ring
  have hk0 : (0 : ℚ) ≤ k := by positivity
  have hk1 : (k : ℚ) + 1 ≤ n := by exact_mod_cast hk
  constructor
  · nlinarith
  · nlinarith

theorem mem_cells {nk ni nj : Nat} {p : Nat × Nat × Nat} : p ∈ cells nk ni nj ↔ p.1 < nk ∧ p.2.1 < ni ∧ p.2.2 < nj := by
  obtain ⟨k, i, j⟩ := p
  simp only [cells, List.mem_flatMap, List.mem_map, List.mem_range, Prod.mk.injEq]
  constructor
  · rintro ⟨a, ha, b, hb, d, hd, rfl, rfl, rfl⟩; exact ⟨ha, hb, hd⟩
  · rintro ⟨h1, h2, h3⟩; exact ⟨k, h1, i, h2, j, h3, rfl, rfl, rfl⟩

theorem flat_length {α : Type} (f : Nat → List α) (m n : Nat) (h : ∀ a < n, (f a).length = m) : ((List.range n).flatMap f).length = n * m := by
  induction n with
  | zero => simp
  | succ n ih =>
    rw [List.range_succ, List.flatMap_append, List.length_append, ih fun a ha => h a (by omega)]
    simp [h n (by omega), Nat.succ_mul]

theorem flat_get {α : Type} (f : Nat → List α) (m n a b : Nat) (h : ∀ a < n, (f a).length = m) (ha : a < n) (hb : b < m) : ((List.range n).flatMap f)[a * m + b]? = (f a)[b]? := by
  induction n with
  | zero => omega
  | succ n ih =>
    have hl := flat_length f m n fun a ha => h a (by omega)
    rw [List.range_succ, List.flatMap_append]
    by_cases hc : a < n
    · rw [List.getElem?_append_left, ih (fun a ha => h a (by omega)) hc]
      rw [hl]
      have : (a + 1) * m ≤ n * m := Nat.mul_le_mul_right m hc
      rw [Nat.succ_mul] at this
      omega
    · have : a = n := by omega
      subst this
      rw [List.getElem?_append_right (by rw [hl]; omega), hl]
      simp

theorem cells_length (nk ni nj : Nat) : (cells nk ni nj).length = nk * ni * nj := by
  rw [cells, flat_length _ (ni * nj)]
  · rw [Nat.mul_assoc]
  · intro k _
    rw [flat_length _ nj]
    intro i _
    simp

theorem cells_get {nk ni nj k i j : Nat} (hk : k < nk) (hi : i < ni) (hj : j < nj) : (cells nk ni nj)[flat ni nj k i j]? = some (k, i, j) := by
  have e : flat ni nj k i j = k * (ni * nj) + (i * nj + j) := by rw [flat]; ring
  have hb : i * nj + j < ni * nj := by
    have : (i + 1) * nj ≤ ni * nj := Nat.mul_le_mul_right nj hi
    rw [Nat.succ_mul] at this
    omega
  rw [e, cells, flat_get _ (ni * nj) nk k (i * nj + j) _ hk hb, flat_get _ nj ni i j _ hi hj]
  · rw [List.getElem?_map, List.getElem?_range hj]; rfl
  · intro i _; simp
  · intro k _
    rw [flat_length _ nj]
    intro i _
    simp

theorem cells_sorted (nk ni nj : Nat) : ((cells nk ni nj).map fun p => ([(p.1 : Int), (p.2.1 : Int), (p.2.2 : Int)] : List Int)).Pairwise fun a b => lexLe a b = true ∧ a ≠ b := by
  rw [List.pairwise_map, cells, List.pairwise_flatMap]
  have key : ∀ a b : Nat × Nat × Nat, (a.1 < b.1 ∨ (a.1 = b.1 ∧ (a.2.1 < b.2.1 ∨ (a.2.1 = b.2.1 ∧ a.2.2 < b.2.2)))) →
      lexLe ([(a.1 : Int), (a.2.1 : Int), (a.2.2 : Int)]) [(b.1 : Int), (b.2.1 : Int), (b.2.2 : Int)] = true ∧ ([(a.1 : Int), (a.2.1 : Int), (a.2.2 : Int)] : List Int) ≠ [(b.1 : Int), (b.2.1 : Int), (b.2.2 : Int)] := by
    rintro ⟨a, b, c⟩ ⟨a', b', c'⟩ h
    simp only [lexLe, ne_eq, List.cons.injEq, Int.natCast_inj, Int.ofNat_le] at h ⊢
    rcases h with h | ⟨rfl, h | ⟨rfl, h⟩⟩
    · have : ¬ a = a' := by omega
      simp [this]; omega
    · have : ¬ b = b' := by omega
      simp [this]; omega
    · have : ¬ c = c' := by omega
      simp [this]; omega
  constructor
  · intro k _
    rw [List.pairwise_flatMap]
    constructor
    · intro i _
      rw [List.pairwise_map]
      refine List.pairwise_lt_range.imp ?_
      intro j j' h
      exact key _ _ (.inr ⟨rfl, .inr ⟨rfl, h⟩⟩)
    · refine List.pairwise_lt_range.imp ?_
      intro i i' h p hp q hq
      obtain ⟨j, _, rfl⟩ := List.mem_map.1 hp
      obtain ⟨j', _, rfl⟩ := List.mem_map.1 hq
      exact key _ _ (.inr ⟨rfl, .inl h⟩)
  · refine List.pairwise_lt_range.imp ?_
    intro k k' h p hp q hq
    simp only [List.mem_flatMap, List.mem_map] at hp hq
    obtain ⟨i, _, j, _, rfl⟩ := hp
    obtain ⟨i', _, j', _, rfl⟩ := hq
    exact key _ _ (.inl h)

/-- The keys of a table whose keys are a given sorted list. -/
theorem groupKeys_of_sorted {α : Type} [LinearOrder α] {keys l : List (List α)} (hm : ∀ k, k ∈ keys ↔ k ∈ l) (hs : l.Pairwise fun a b => lexLe a b = true ∧ a ≠ b) : groupKeys keys = l := by
  have hp : (groupKeys keys).Perm l := by
    rw [List.perm_ext_iff_of_nodup (groupKeys_nodup _) (hs.imp fun h => h.2)]
    intro a
    rw [mem_groupKeys, hm]
  have : Std.Antisymm (fun a b : List α => lexLe a b = true) := ⟨fun _ _ => lexLe_antisymm⟩
  exact hp.eq_of_pairwise' (groupKeys_sorted keys) (hs.imp fun h => h.1)

theorem emptyMap_eq (c : Config) : emptyMap c = (cells c.ndt c.nxy c.nxy).map fun p => ⟨p.1, p.2.1, p.2.2, ⟨none, none, none, none, none⟩⟩ := by
  simp only [emptyMap, cells, List.map_flatMap, List.map_map]
  rfl

theorem bin_iff {c : Config} (hxy : c.xy.1 < c.xy.2) (hdt : c.dt.1 < c.dt.2) (hn : 0 < c.nxy) (hd : 0 < c.ndt) {evts : List Evt} {e : Evt} (k i j : Nat) (hk : k < c.ndt) (hi : i < c.nxy) (hj : j < c.nxy) :
    (e ∈ selected c evts ∧ bin c e = [(k : Int), (i : Int), (j : Int)]) ↔
    e ∈ evts ∧ InPart c.dt c.ndt k e.dt ∧ InPart c.xy c.nxy i e.x ∧ InPart c.xy c.nxy j e.y ∧ c.s2e.1 ≤ e.s2e ∧ e.s2e < c.s2e.2 := by
  simp only [selected, List.mem_filter, Bool.and_eq_true, within_iff, bin, List.cons.injEq, and_true]
  constructor
  · rintro ⟨⟨h0, ⟨⟨h1, h2⟩, h3⟩, h4⟩, h5, h6, h7⟩
    exact ⟨h0, ((digitize_iff hdt hd h3 k).1 h5).2, ((digitize_iff hxy hn h1 i).1 h6).2, ((digitize_iff hxy hn h2 j).1 h7).2, h4⟩
  · rintro ⟨h0, h1, h2, h3, h4⟩
    have g1 := inPart_range hdt hk h1
    have g2 := inPart_range hxy hi h2
    have g3 := inPart_range hxy hj h3
    exact ⟨⟨h0, ⟨⟨g2, g3⟩, g1⟩, h4⟩, (digitize_iff hdt hd g1 k).2 ⟨hk, h1⟩, (digitize_iff hxy hn g2 i).2 ⟨hi, h2⟩, (digitize_iff hxy hn g3 j).2 ⟨hj, h3⟩⟩

theorem bin_cell {c : Config} (hxy : c.xy.1 < c.xy.2) (hdt : c.dt.1 < c.dt.2) (hn : 0 < c.nxy) (hd : 0 < c.ndt) {evts : List Evt} {e : Evt} (he : e ∈ selected c evts) :
    ∃ k i j : Nat, k < c.ndt ∧ i < c.nxy ∧ j < c.nxy ∧ bin c e = [(k : Int), (i : Int), (j : Int)] := by
  simp only [selected, List.mem_filter, Bool.and_eq_true, within_iff] at he
  obtain ⟨h0, ⟨⟨h1, h2⟩, h3⟩, h4⟩ := he
  have hpos : ∀ {r : ℚ × ℚ} {n : Nat} {v : ℚ}, r.1 < r.2 → 0 < n → r.1 ≤ v → v < r.2 → ∃ k : Nat, k < n ∧ (searchRight (linspace r.1 r.2 n) v : Int) - 1 = k := by
    intro r n v hr hn hv1 hv2
    have hs : (linspace r.1 r.2 n).Pairwise (· ≤ ·) := (linspace_sorted hr hn).imp fun h => h.le
    have h1 : 0 < searchRight (linspace r.1 r.2 n) v := (lt_searchRight hs v 0).2 ⟨_, linspace_get (by omega), by push_cast; linarith⟩
    have e : (searchRight (linspace r.1 r.2 n) v : Int) - 1 = ((searchRight (linspace r.1 r.2 n) v - 1 : Nat) : Int) := by omega
    exact ⟨_, ((digitize_iff hr hn ⟨hv1, hv2⟩ _).1 e).1, e⟩
  obtain ⟨k, hk, hk'⟩ := hpos hdt hd h3.1 h3.2
  obtain ⟨i, hi, hi'⟩ := hpos hxy hn h1.1 h1.2
  obtain ⟨j, hj, hj'⟩ := hpos hxy hn h2.1 h2.2
  exact ⟨k, i, j, hk, hi, hj, by rw [bin, hk', hi', hj']⟩

theorem bin_shape (c : Config) (e : Evt) : ∃ a b d, bin c e = [a, b, d] := ⟨_, _, _, rfl⟩

/-- The rows of the fitted map with given indices. -/
theorem fitMap_at (c : Config) (f : List ℚ → Fit) (evts : List Evt) (a b d : Int) :
    (fitMap c f evts).filter (fun r => decide (r.key = [a, b, d])) =
      if (selected c evts).filter (fun e => decide (bin c e = [a, b, d])) = [] then []
      else [⟨a, b, d, f (((selected c evts).filter fun e => decide (bin c e = [a, b, d])).map Evt.s2e)⟩] := by
  rw [fitMap, groupBy, List.filterMap_map]
  have hsh : ∀ k ∈ groupKeys ((selected c evts).map (bin c)), ∃ a b d, k = [a, b, d] := by
    intro k hk
    obtain ⟨e, _, rfl⟩ := List.mem_map.1 (mem_groupKeys.1 hk)
    exact bin_shape c e
  have hmem : ([a, b, d] ∈ groupKeys ((selected c evts).map (bin c))) ↔ ¬ (selected c evts).filter (fun e => decide (bin c e = [a, b, d])) = [] := by
    rw [mem_groupKeys, List.mem_map, List.filter_eq_nil_iff]
    push Not
    simp
  have hnd := groupKeys_nodup ((selected c evts).map (bin c))
  revert hsh hmem hnd
  generalize groupKeys ((selected c evts).map (bin c)) = ks
  intro hsh hmem hnd
  have main : ∀ ks : List (List Int), (∀ k ∈ ks, ∃ a b d, k = [a, b, d]) → ks.Nodup →
      (ks.filterMap (fitRow f ∘ fun k => (k, (selected c evts).filter fun r => decide (bin c r = k)))).filter (fun r => decide (r.key = [a, b, d])) =
        if [a, b, d] ∈ ks then [⟨a, b, d, f (((selected c evts).filter fun e => decide (bin c e = [a, b, d])).map Evt.s2e)⟩] else [] := by
    intro ks
    induction ks with
    | nil => intro _ _; rfl
    | cons k ks ih =>
      intro hsh hnd
      have ih := ih (fun k hk => hsh k (List.mem_cons_of_mem _ hk)) (List.nodup_cons.1 hnd).2
      obtain ⟨a', b', d', rfl⟩ := hsh k List.mem_cons_self
      have e : (fitRow f ∘ fun k => (k, (selected c evts).filter fun r => decide (bin c r = k))) [a', b', d'] =
          some ⟨a', b', d', f (((selected c evts).filter fun e => decide (bin c e = [a', b', d'])).map Evt.s2e)⟩ := rfl
      rw [List.filterMap_cons, e]
      simp only [List.filter_cons]
      by_cases hk : [a, b, d] = [a', b', d']
      · have hk' := hk
        simp only [List.cons.injEq, and_true] at hk'
        obtain ⟨rfl, rfl, rfl⟩ := hk'
        rw [if_pos (by simp [Row.key]), ih, if_neg (List.nodup_cons.1 hnd).1, if_pos List.mem_cons_self]
      · rw [if_neg (fun h => hk (of_decide_eq_true h).symm), ih]
        have : ([a, b, d] ∈ [a', b', d'] :: ks) ↔ [a, b, d] ∈ ks := by
          rw [List.mem_cons]
          exact ⟨fun h => h.resolve_left hk, .inr⟩
        simp only [this]
  rw [main ks hsh hnd]
  by_cases h : (selected c evts).filter (fun e => decide (bin c e = [a, b, d])) = []
  · rw [if_pos h, if_neg (fun hm => (hmem.1 hm) h)]
  · rw [if_neg h, if_pos (hmem.2 h)]

theorem firstFit_data (f : Fit) : firstFit [f, ⟨none, none, none, none, none⟩] = f := by
  obtain ⟨a, b, d, e, g⟩ := f
  have : ∀ v : Option ℚ, firstValid [v, none] = v := by intro v; cases v <;> rfl
  simp [firstFit, this]

/-- The merged map. -/
theorem merged_eq {c : Config} (hxy : c.xy.1 < c.xy.2) (hdt : c.dt.1 < c.dt.2) (hn : 0 < c.nxy) (hd : 0 < c.ndt) (f : List ℚ → Fit) (evts : List Evt) :
    mergeMaps (emptyMap c) (fitMap c f evts) = (cells c.ndt c.nxy c.nxy).map fun p =>
      ⟨p.1, p.2.1, p.2.2, if energies c evts p.1 p.2.1 p.2.2 = [] then ⟨none, none, none, none, none⟩ else f (energies c evts p.1 p.2.1 p.2.2)⟩ := by
  have hsel : ∀ p ∈ cells c.ndt c.nxy c.nxy, ((selected c evts).filter fun e => decide (bin c e = [(p.1 : Int), (p.2.1 : Int), (p.2.2 : Int)])).map Evt.s2e = energies c evts p.1 p.2.1 p.2.2 := by
    intro p hp
    obtain ⟨h1, h2, h3⟩ := mem_cells.1 hp
    rw [energies, selected, List.filter_filter]
    congr 1
    apply List.filter_congr
    intro e he
    have := bin_iff (evts := evts) (e := e) hxy hdt hn hd p.1 p.2.1 p.2.2 h1 h2 h3
    rw [selected, List.mem_filter] at this
    rw [Bool.eq_iff_iff, Bool.and_eq_true, decide_eq_true_eq, decide_eq_true_eq]
    constructor
    · rintro ⟨g1, g2⟩; exact (this.1 ⟨⟨he, g2⟩, g1⟩).2
    · intro g
      obtain ⟨⟨_, g1⟩, g2⟩ := this.2 ⟨he, g⟩
      exact ⟨g2, g1⟩
  have hkeys : groupKeys ((fitMap c f evts ++ emptyMap c).map Row.key) = (cells c.ndt c.nxy c.nxy).map fun p => ([(p.1 : Int), (p.2.1 : Int), (p.2.2 : Int)] : List Int) := by
    apply groupKeys_of_sorted _ (cells_sorted _ _ _)
    intro k
    rw [List.map_append, List.mem_append]
    have hempty : k ∈ (emptyMap c).map Row.key ↔ k ∈ (cells c.ndt c.nxy c.nxy).map fun p => ([(p.1 : Int), (p.2.1 : Int), (p.2.2 : Int)] : List Int) := by
      rw [emptyMap_eq, List.map_map]; rfl
    rw [hempty]
    constructor
    · rintro (h | h)
      · obtain ⟨r, hr, rfl⟩ := List.mem_map.1 h
        obtain ⟨g, hg, hgr⟩ := List.mem_filterMap.1 hr
        obtain ⟨h1, h2, h3⟩ := mem_groupBy hg
        obtain ⟨e, he⟩ := List.exists_mem_of_ne_nil _ h2
        have heg := h3 e he
        have hes : e ∈ selected c evts := by rw [h1] at he; exact List.mem_of_mem_filter he
        obtain ⟨k, i, j, hk, hi, hj, hb⟩ := bin_cell hxy hdt hn hd hes
        rw [fitRow, ← heg, hb] at hgr
        simp only [Option.some.injEq] at hgr
        rw [← hgr]
        exact List.mem_map.2 ⟨(k, i, j), mem_cells.2 ⟨hk, hi, hj⟩, rfl⟩
      · exact h
    · exact .inr
  rw [mergeMaps, groupBy, hkeys, List.map_map, List.filterMap_map]
  rw [← List.filterMap_eq_map']
  apply List.filterMap_congr
  intro p hp
  have hnan : (emptyMap c).filter (fun r => decide (r.key = [(p.1 : Int), (p.2.1 : Int), (p.2.2 : Int)])) = [⟨p.1, p.2.1, p.2.2, ⟨none, none, none, none, none⟩⟩] := by
    rw [emptyMap_eq, List.filter_map]
    have hnd : (cells c.ndt c.nxy c.nxy).Nodup := by
      have := (cells_sorted c.ndt c.nxy c.nxy).imp fun h => h.2
      exact List.Nodup.of_map _ this
    have e : ((fun r : Row => decide (r.key = [(p.1 : Int), (p.2.1 : Int), (p.2.2 : Int)])) ∘ fun q : Nat × Nat × Nat => (⟨q.1, q.2.1, q.2.2, ⟨none, none, none, none, none⟩⟩ : Row)) = fun q => q == p := by
      funext q
      rw [Bool.eq_iff_iff]
      obtain ⟨a, b, d⟩ := q
      obtain ⟨a', b', d'⟩ := p
      simp [Row.key]
    rw [e, List.filter_beq, List.count_eq_one_of_mem hnd hp]
    rfl
  simp only [Function.comp_apply, mergeRow]
  rw [List.filter_append, fitMap_at, hnan]
  have hs := hsel p hp
  by_cases h : (selected c evts).filter (fun e => decide (bin c e = [(p.1 : Int), (p.2.1 : Int), (p.2.2 : Int)])) = []
  · rw [h] at hs
    rw [if_pos h, ← hs]
    rfl
  · rw [if_neg h, hs, if_neg]
    · simp only [List.singleton_append, List.map_cons, List.map_nil, firstFit_data]
    · rw [← hs]
      simpa using h

/-- **C74** The map before the regularization has exactly one row for each bin, in the order of the indices, with the coordinates of the centre of the bin, and the fit of the energies of the events in the bin
(in their order), or NaN if there are none. -/
theorem map_rows {c : Config} (hxy : c.xy.1 < c.xy.2) (hdt : c.dt.1 < c.dt.2) (hn : 0 < c.nxy) (hd : 0 < c.ndt) (f : List ℚ → Fit) (evts : List Evt) :
    ((fullMap c f evts).map fun r => (r.k, r.i, r.j)) = (cells c.ndt c.nxy c.nxy).map (fun p => ((p.1 : Int), (p.2.1 : Int), (p.2.2 : Int))) ∧
    ∀ r ∈ fullMap c f evts, ∃ k i j : Nat, k < c.ndt ∧ i < c.nxy ∧ j < c.nxy ∧ r.k = k ∧ r.i = i ∧ r.j = j ∧
      r.dt = centre c.dt c.ndt k ∧ r.x = centre c.xy c.nxy i ∧ r.y = centre c.xy c.nxy j ∧
      r.fit = (if energies c evts k i j = [] then ⟨none, none, none, none, none⟩ else f (energies c evts k i j)) := by
  rw [fullMap, merged_eq hxy hdt hn hd]
  constructor
  · rw [List.map_map, List.map_map]; rfl
  · intro r hr
    rw [List.map_map] at hr
    obtain ⟨p, hp, rfl⟩ := List.mem_map.1 hr
    obtain ⟨h1, h2, h3⟩ := mem_cells.1 hp
    refine ⟨p.1, p.2.1, p.2.2, h1, h2, h3, rfl, rfl, rfl, ?_, ?_, ?_, rfl⟩ <;>
    · simp only [Function.comp_apply, withCoordinates, centre]
      push_cast
      ring

example : (fullMap ⟨(0, 20), (0, 10), 2, 1, (1, 100)⟩ (fun v => ⟨some v.length, some v.sum, none, none, none⟩) [⟨5, 5, 3, 7, 0⟩, ⟨10, 5, 3, 8, 3600⟩, ⟨0, 0, 0, 9, 7⟩, ⟨5, 5, 3, 100, 1⟩]).map
    (fun r => (r.i, r.j, r.x, r.fit.mu)) =
    [(0, 0, 5, some 16), (0, 1, 5, none), (1, 0, 15, some 8), (1, 1, 15, none)] := by decide +kernel

/-- **C74** The density of a bin: its number of events per cubic centimetre and hour, between the first and the last of all the events; NaN if there are no events or all have the same time. -/
theorem map_density {c : Config} (hxy : c.xy.1 < c.xy.2) (hdt : c.dt.1 < c.dt.2) (hn : 0 < c.nxy) (hd : 0 < c.ndt) (f : List ℚ → Fit) (evts : List Evt) (first last : Evt) (hf : first ∈ evts) (hl : last ∈ evts)
    (hff : ∀ e ∈ evts, first.time ≤ e.time) (hll : ∀ e ∈ evts, e.time ≤ last.time) (r : Out) (hr : r ∈ fullMap c f evts) :
    r.density = (if first.time = last.time then none
      else r.fit.nevents.map fun n => n / (((c.dt.2 - c.dt.1) / c.ndt * ((c.xy.2 - c.xy.1) / c.nxy) ^ 2 / 1000) * ((last.time - first.time) / 3600))) := by
  have hne : evts.map Evt.time ≠ [] := by
    intro h
    rw [List.map_eq_nil_iff] at h
    rw [h] at hf
    cases hf
  have hmin : Voxels.npMin (evts.map Evt.time) = first.time := by
    obtain ⟨e, he, h⟩ := List.mem_map.1 (Paolina.npMin_mem (xs := evts.map Evt.time) hne)
    exact le_antisymm (Voxels.npMin_le (List.mem_map_of_mem hf)) (h ▸ hff e he)
  have hmax : Voxels.npMax (evts.map Evt.time) = last.time := by
    obtain ⟨e, he, h⟩ := List.mem_map.1 (Paolina.npMax_mem (xs := evts.map Evt.time) hne)
    exact le_antisymm (h ▸ hll e he) (Voxels.le_npMax (List.mem_map_of_mem hl))
  rw [fullMap, merged_eq hxy hdt hn hd, hmin, hmax, List.map_map] at hr
  obtain ⟨p, _, rfl⟩ := List.mem_map.1 hr
  have hx : (c.xy.2 - c.xy.1) / c.nxy ≠ 0 := (div_pos (sub_pos.2 hxy) (by exact_mod_cast hn)).ne'
  have hy : (c.dt.2 - c.dt.1) / c.ndt ≠ 0 := (div_pos (sub_pos.2 hdt) (by exact_mod_cast hd)).ne'
  simp only [Function.comp_apply, withCoordinates]
  have hv : ¬ (c.dt.2 - c.dt.1) / c.ndt * ((c.xy.2 - c.xy.1) / c.nxy) * ((c.xy.2 - c.xy.1) / c.nxy) * (1 / 1000) = 0 :=
    mul_ne_zero (mul_ne_zero (mul_ne_zero hy hx) hx) (by norm_num)
  by_cases ht : first.time = last.time
  · rw [if_pos ht, if_pos (Or.inr (by rw [ht]; norm_num))]
  · have hh : ¬ (last.time - first.time) / 3600 = 0 := div_ne_zero (sub_ne_zero.2 (Ne.symm ht)) (by norm_num)
    rw [if_neg ht, if_neg (by tauto)]
    congr 1
    funext n
    rw [div_div]
    congr 1
    ring

example : (fullMap ⟨(0, 20), (0, 10), 2, 1, (1, 100)⟩ (fun v => ⟨some v.length, some v.sum, none, none, none⟩) [⟨5, 5, 3, 7, 3600⟩, ⟨10, 5, 3, 8, 10800⟩, ⟨5, 5, 3, 100, 3601⟩]).map (fun r => r.density) =
    [some (1 / 2), none, some (1 / 2), none] := by decide +kernel

/-- The parts divide the range. -/
theorem part_unique {r : ℚ × ℚ} {n : Nat} (hr : r.1 < r.2) (hn : 0 < n) {v : ℚ} (hv : r.1 ≤ v ∧ v < r.2) : ∃ k, (k < n ∧ InPart r n k v) ∧ ∀ k', k' < n ∧ InPart r n k' v → k' = k := by
  have hs : (linspace r.1 r.2 n).Pairwise (· ≤ ·) := (linspace_sorted hr hn).imp fun h => h.le
  have h1 : 0 < searchRight (linspace r.1 r.2 n) v := (lt_searchRight hs v 0).2 ⟨_, linspace_get (by omega), by push_cast; linarith [hv.1]⟩
  have e : (searchRight (linspace r.1 r.2 n) v : Int) - 1 = ((searchRight (linspace r.1 r.2 n) v - 1 : Nat) : Int) := by omega
  refine ⟨_, (digitize_iff hr hn hv _).1 e, ?_⟩
  intro k' hk'
  have := (digitize_iff hr hn hv k').2 hk'
  omega

/-- **C74** Each event in the ranges is counted in exactly one bin. -/
theorem one_bin {c : Config} (hxy : c.xy.1 < c.xy.2) (hdt : c.dt.1 < c.dt.2) (hn : 0 < c.nxy) (hd : 0 < c.ndt) (evts : List Evt) :
    ((cells c.ndt c.nxy c.nxy).flatMap fun p => energies c evts p.1 p.2.1 p.2.2).Perm
      ((evts.filter fun e => decide ((c.xy.1 ≤ e.x ∧ e.x < c.xy.2) ∧ (c.xy.1 ≤ e.y ∧ e.y < c.xy.2) ∧ (c.dt.1 ≤ e.dt ∧ e.dt < c.dt.2) ∧ c.s2e.1 ≤ e.s2e ∧ e.s2e < c.s2e.2)).map Evt.s2e) := by
  have hsel : (evts.filter fun e => decide ((c.xy.1 ≤ e.x ∧ e.x < c.xy.2) ∧ (c.xy.1 ≤ e.y ∧ e.y < c.xy.2) ∧ (c.dt.1 ≤ e.dt ∧ e.dt < c.dt.2) ∧ c.s2e.1 ≤ e.s2e ∧ e.s2e < c.s2e.2)) = selected c evts := by
    rw [selected]
    apply List.filter_congr
    intro e _
    rw [Bool.eq_iff_iff, decide_eq_true_eq]
    simp only [Bool.and_eq_true, within_iff]
    tauto
  rw [hsel]
  have hg : ((cells c.ndt c.nxy c.nxy).flatMap fun p => (selected c evts).filter fun e => decide (bin c e = [(p.1 : Int), (p.2.1 : Int), (p.2.2 : Int)])).Perm (selected c evts) := by
    have hnd : ((cells c.ndt c.nxy c.nxy).map fun p : Nat × Nat × Nat => ([(p.1 : Int), (p.2.1 : Int), (p.2.2 : Int)] : List Int)).Nodup :=
      (cells_sorted c.ndt c.nxy c.nxy).imp fun h => h.2
    have := Sources.perm_groups (bin c) _ (selected c evts) hnd (by
        intro e he
        obtain ⟨k, i, j, hk, hi, hj, hb⟩ := bin_cell hxy hdt hn hd he
        exact List.mem_map.2 ⟨(k, i, j), mem_cells.2 ⟨hk, hi, hj⟩, hb.symm⟩)
    rw [List.map_map, ← List.flatMap_def] at this
    exact this
  have := hg.map Evt.s2e
  rw [List.map_flatMap] at this
  refine List.Perm.trans (List.Perm.of_eq ?_) this
  apply List.flatMap_congr
  intro p hp
  obtain ⟨h1, h2, h3⟩ := mem_cells.1 hp
  rw [energies, selected, List.filter_filter]
  congr 1
  apply List.filter_congr
  intro e he
  have := bin_iff (evts := evts) (e := e) hxy hdt hn hd p.1 p.2.1 p.2.2 h1 h2 h3
  rw [selected, List.mem_filter] at this
  rw [Bool.eq_iff_iff, Bool.and_eq_true, decide_eq_true_eq, decide_eq_true_eq]
  constructor
  · intro g
    obtain ⟨⟨_, g1⟩, g2⟩ := this.2 ⟨he, g⟩
    exact ⟨g2, g1⟩
  · rintro ⟨g1, g2⟩; exact (this.1 ⟨⟨he, g2⟩, g1⟩).2

example : ((cells 1 2 2).flatMap fun p => energies ⟨(0, 20), (0, 10), 2, 1, (1, 100)⟩ [⟨5, 5, 3, 7, 0⟩, ⟨10, 5, 3, 8, 3600⟩, ⟨0, 20, 0, 9, 7⟩] p.1 p.2.1 p.2.2) = [7, 8] := by decide +kernel

/-! ### Regularization -/

theorem flat_inj {ni nj k i j k' i' j' : Nat} (hi : i < ni) (hj : j < nj) (hi' : i' < ni) (hj' : j' < nj) (h : flat ni nj k i j = flat ni nj k' i' j') : k = k' ∧ i = i' ∧ j = j' := by
  rw [flat, flat] at h
  have h1 : j = j' := by
    have := congrArg (· % nj) h
    simpa [Nat.mul_add_mod, Nat.mod_eq_of_lt hj, Nat.mod_eq_of_lt hj', Nat.mul_comm] using this
  subst h1
  have hnj : 0 < nj := by omega
  have h2 : k * ni + i = k' * ni + i' := Nat.eq_of_mul_eq_mul_right hnj (by omega)
  have h3 : i = i' := by
    have := congrArg (· % ni) h2
    simpa [Nat.mul_add_mod, Nat.mod_eq_of_lt hi, Nat.mod_eq_of_lt hi', Nat.mul_comm] using this
  subst h3
  have hni : 0 < ni := by omega
  exact ⟨Nat.eq_of_mul_eq_mul_right hni (by omega), rfl, rfl⟩

theorem flat_lt {nk ni nj k i j : Nat} (hk : k < nk) (hi : i < ni) (hj : j < nj) : flat ni nj k i j < nk * ni * nj := by
  rw [flat]
  have h1 : (k + 1) * ni ≤ nk * ni := Nat.mul_le_mul_right ni hk
  have h2 : (k * ni + i + 1) * nj ≤ nk * ni * nj := Nat.mul_le_mul_right nj (by rw [Nat.succ_mul] at h1; omega)
  rw [Nat.succ_mul] at h2
  omega

theorem mem_interior {nk ni nj : Nat} {p : Nat × Nat × Nat} : p ∈ interior nk ni nj ↔ p.1 < nk ∧ Inside ni nj p.2.1 p.2.2 := by
  have hd : ∀ (n x : Nat), x ∈ (List.range n).drop 1 ↔ 1 ≤ x ∧ x < n := by
    intro n x
    cases n with
    | zero => simp
    | succ n =>
      rw [List.range_succ_eq_map]
      simp only [List.drop_succ_cons, List.drop_zero, List.mem_map, List.mem_range]
      constructor
      · rintro ⟨a, ha, rfl⟩; omega
      · intro h; exact ⟨x - 1, by omega, by omega⟩
  obtain ⟨k, i, j⟩ := p
  simp only [interior, List.mem_flatMap, List.mem_map, hd, List.mem_range, Prod.mk.injEq, Inside]
  constructor
  · rintro ⟨a, ha, b, hb, d, hd', rfl, rfl, rfl⟩; exact ⟨ha, by omega⟩
  · rintro ⟨h1, h2⟩; exact ⟨k, h1, i, by omega, j, by omega, rfl, rfl, rfl⟩

theorem interior_sorted (nk ni nj : Nat) : (interior nk ni nj).Pairwise fun p q => flat ni nj p.1 p.2.1 p.2.2 < flat ni nj q.1 q.2.1 q.2.2 := by
  have hdrop : ∀ n, ((List.range n).drop 1).Pairwise (· < ·) := fun n => List.pairwise_lt_range.sublist (List.drop_sublist 1 _)
  have hmem : ∀ (n x : Nat), x ∈ (List.range n).drop 1 → x < n := fun n x h => List.mem_range.1 (List.mem_of_mem_drop h)
  rw [interior, List.pairwise_flatMap]
  constructor
  · intro k _
    rw [List.pairwise_flatMap]
    constructor
    · intro i _
      rw [List.pairwise_map]
      refine (hdrop _).imp ?_
      intro j j' h
      simp only [flat]; omega
    · refine (hdrop _).imp ?_
      intro i i' h p hp q hq
      obtain ⟨j, hj, rfl⟩ := List.mem_map.1 hp
      obtain ⟨j', hj', rfl⟩ := List.mem_map.1 hq
      have := hmem _ _ hj
      simp only [flat]
      have : (k * ni + i + 1) * nj ≤ (k * ni + i') * nj := Nat.mul_le_mul_right nj (by omega)
      rw [Nat.succ_mul] at this
      omega
  · refine List.pairwise_lt_range.imp ?_
    intro k k' h p hp q hq
    simp only [List.mem_flatMap, List.mem_map] at hp hq
    obtain ⟨i, hi, j, hj, rfl⟩ := hp
    obtain ⟨i', hi', j', hj', rfl⟩ := hq
    have g1 := hmem _ _ hi
    have g2 := hmem _ _ hj
    simp only [flat]
    have h1 : (k + 1) * ni ≤ k' * ni := Nat.mul_le_mul_right ni h
    rw [Nat.succ_mul] at h1
    have : (k * ni + i + 1) * nj ≤ (k' * ni + i') * nj := Nat.mul_le_mul_right nj (by omega)
    rw [Nat.succ_mul] at this
    omega

/-- The neighbours of a bin that is not in the border are bins, different from it. -/
theorem around_spec {ni nj i j : Nat} (h : Inside ni nj i j) {p : Nat × Nat} (hp : p ∈ around i j) : p.1 < ni ∧ p.2 < nj ∧ p ≠ (i, j) := by
  obtain ⟨h1, h2, h3, h4⟩ := h
  simp only [around, List.mem_cons, List.not_mem_nil, or_false] at hp
  rcases hp with rfl | rfl | rfl | rfl | rfl | rfl | rfl | rfl <;> simp <;> omega

theorem value_set {ni nj : Nat} {mu : List (Option ℚ)} {n : Nat} {v : Option ℚ} {k i j : Nat} (h : flat ni nj k i j ≠ n) : value ni nj (mu.set n v) k i j = value ni nj mu k i j := by
  rw [value, value, List.getElem?_set_ne (Ne.symm h)]

theorem value_set_eq {ni nj : Nat} {mu : List (Option ℚ)} {v : Option ℚ} {k i j : Nat} (h : flat ni nj k i j < mu.length) : value ni nj (mu.set (flat ni nj k i j) v) k i j = v := by
  rw [value, List.getElem?_set_self h]; rfl

/-- The bins of a list of visits, one after another. -/
theorem fill_loop {nk ni nj : Nat} (ps : List (Nat × Nat × Nat)) (hin : ∀ p ∈ ps, p.1 < nk ∧ Inside ni nj p.2.1 p.2.2)
    (hs : ps.Pairwise fun p q => flat ni nj p.1 p.2.1 p.2.2 < flat ni nj q.1 q.2.1 q.2.2) :
    ∀ cur : List (Option ℚ), cur.length = nk * ni * nj → ∃ out, ps.foldlM (fillOne true ni nj) cur = .ok out ∧ out.length = cur.length ∧
      (∀ n, (∀ p ∈ ps, flat ni nj p.1 p.2.1 p.2.2 ≠ n) → out[n]? = cur[n]?) ∧
      ∀ p ∈ ps, value ni nj out p.1 p.2.1 p.2.2 =
        if (value ni nj cur p.1 p.2.1 p.2.2).isSome then value ni nj cur p.1 p.2.1 p.2.2
        else if 3 < ((around p.2.1 p.2.2).map (seen ni nj cur out p.1 p.2.1 p.2.2)).countP Option.isNone then none
        else some (nanmean ((around p.2.1 p.2.2).map (seen ni nj cur out p.1 p.2.1 p.2.2))) := by
  induction ps with
  | nil => intro cur _; exact ⟨cur, rfl, rfl, fun _ _ => rfl, fun p hp => by cases hp⟩
  | cons p ps ih =>
    intro cur hlen
    obtain ⟨hk, hins⟩ := hin p List.mem_cons_self
    have hlt : flat ni nj p.1 p.2.1 p.2.2 < cur.length := by
      rw [hlen]
      obtain ⟨h1, h2, h3, h4⟩ := hins
      exact flat_lt hk (by omega) (by omega)
    rw [List.pairwise_cons] at hs
    -- the step
    obtain ⟨nxt, hnxt, hl2, hother, hval⟩ : ∃ nxt, fillOne true ni nj cur p = .ok nxt ∧ nxt.length = cur.length ∧ (∀ n, flat ni nj p.1 p.2.1 p.2.2 ≠ n → nxt[n]? = cur[n]?) ∧
        value ni nj nxt p.1 p.2.1 p.2.2 = if (value ni nj cur p.1 p.2.1 p.2.2).isSome then value ni nj cur p.1 p.2.1 p.2.2
          else if 3 < (vals ni nj cur p.1 p.2.1 p.2.2).countP Option.isNone then none else some (nanmean (vals ni nj cur p.1 p.2.1 p.2.2)) := by
      by_cases h1 : (value ni nj cur p.1 p.2.1 p.2.2).isSome = true
      · exact ⟨cur, by rw [fillOne, if_pos h1], rfl, fun _ _ => rfl, by rw [if_pos h1]⟩
      · by_cases h2 : 3 < (vals ni nj cur p.1 p.2.1 p.2.2).countP Option.isNone
        · refine ⟨cur, by rw [fillOne, if_neg h1, if_pos h2], rfl, fun _ _ => rfl, ?_⟩
          rw [if_neg h1, if_pos h2]
          cases hv : value ni nj cur p.1 p.2.1 p.2.2 with
          | none => rfl
          | some v => rw [hv] at h1; exact absurd rfl h1
        · refine ⟨cur.set (flat ni nj p.1 p.2.1 p.2.2) (some (nanmean (vals ni nj cur p.1 p.2.1 p.2.2))), by rw [fillOne, if_neg h1, if_neg h2]; rfl, by simp, ?_, ?_⟩
          · intro n hne
            rw [List.getElem?_set_ne hne]
          · rw [if_neg h1, if_neg h2, value_set_eq hlt]
    obtain ⟨out, hout, hl, hsame, hrest⟩ := ih (fun q hq => hin q (List.mem_cons_of_mem _ hq)) hs.2 nxt (by rw [hl2, hlen])
    have hp_out : value ni nj out p.1 p.2.1 p.2.2 = value ni nj nxt p.1 p.2.1 p.2.2 := by
      rw [value, value, hsame _ fun q hq => (hs.1 q hq).ne']
    refine ⟨out, ?_, by rw [hl, hl2], ?_, ?_⟩
    · rw [List.foldlM_cons, hnxt]; exact hout
    · intro n hn
      rw [hsame n fun q hq => hn q (List.mem_cons_of_mem _ hq), hother n (hn p List.mem_cons_self)]
    · intro q hq
      rcases List.mem_cons.1 hq with rfl | hq
      · rw [hp_out, hval]
        have hv : vals ni nj cur q.1 q.2.1 q.2.2 = (around q.2.1 q.2.2).map (seen ni nj cur out q.1 q.2.1 q.2.2) := by
          rw [vals]
          apply List.map_congr_left
          intro a ha
          rw [seen]
          by_cases hc : flat ni nj q.1 a.1 a.2 < flat ni nj q.1 q.2.1 q.2.2
          · rw [if_pos hc, value, value, hsame, hother _ (by omega)]
            intro q' hq'
            have := hs.1 q' hq'
            omega
          · rw [if_neg hc]
        rw [hv]
      · rw [hrest q hq]
        have hpq : flat ni nj p.1 p.2.1 p.2.2 < flat ni nj q.1 q.2.1 q.2.2 := hs.1 q hq
        have e1 : value ni nj nxt q.1 q.2.1 q.2.2 = value ni nj cur q.1 q.2.1 q.2.2 := by rw [value, value, hother _ (by omega)]
        have e2 : (around q.2.1 q.2.2).map (seen ni nj nxt out q.1 q.2.1 q.2.2) = (around q.2.1 q.2.2).map (seen ni nj cur out q.1 q.2.1 q.2.2) := by
          apply List.map_congr_left
          intro a _
          rw [seen, seen]
          by_cases hc : flat ni nj q.1 a.1 a.2 < flat ni nj q.1 q.2.1 q.2.2
          · rw [if_pos hc, if_pos hc]
          · rw [if_neg hc, if_neg hc, value, value, hother _ (by omega)]
        rw [e1, e2]

/-- **C74** Regularization (when the values can be written): the values that are not NaN and those of the border do not change; a NaN inside with at most three NaN neighbours, at the moment in which it is visited
(row by row), becomes the average of the neighbours that are not NaN; any other remains NaN.  This determines the result. -/
theorem regularize_spec {nk ni nj : Nat} (mu : List (Option ℚ)) (hlen : mu.length = nk * ni * nj) : ∃ out, regularize true nk ni nj mu = .ok out ∧ out.length = mu.length ∧
    ∀ k i j, k < nk → i < ni → j < nj →
      (((value ni nj mu k i j).isSome ∨ ¬ Inside ni nj i j) → value ni nj out k i j = value ni nj mu k i j) ∧
      (value ni nj mu k i j = none → Inside ni nj i j → value ni nj out k i j =
        if 3 < ((around i j).map (seen ni nj mu out k i j)).countP Option.isNone then none else some (nanmean ((around i j).map (seen ni nj mu out k i j)))) := by
  obtain ⟨out, h1, h2, h3, h4⟩ := fill_loop (nk := nk) (interior nk ni nj) (fun p hp => mem_interior.1 hp) (interior_sorted nk ni nj) mu hlen
  refine ⟨out, by rw [regularize, if_neg (not_not.2 hlen)]; exact h1, h2, ?_⟩
  intro k i j hk hi hj
  constructor
  · intro h
    by_cases hin : Inside ni nj i j
    · have := h4 (k, i, j) (mem_interior.2 ⟨hk, hin⟩)
      rw [this, if_pos (h.resolve_right (not_not.2 hin))]
    · rw [value, value, h3]
      intro p hp he
      obtain ⟨_, g1, g2, g3, g4⟩ := mem_interior.1 hp
      obtain ⟨_, e1, e2⟩ := flat_inj (by omega) (by omega) hi hj he
      exact hin (e1 ▸ e2 ▸ ⟨g1, g2, g3, g4⟩)
  · intro hn hin
    have := h4 (k, i, j) (mem_interior.2 ⟨hk, hin⟩)
    rw [this, if_neg]
    rw [hn]; simp

example : regularize true 1 3 3 [some 1, some 2, some 3, none, none, some 4, none, some 6, some 8] = .ok [some 1, some 2, some 3, none, some 4, some 4, none, some 6, some 8] := by decide +kernel

/-- A neighbour that is not NaN has an influence in the average, as long as it was there at the beginning. -/
theorem isolated_hole {nk ni nj : Nat} (mu : List (Option ℚ)) (hlen : mu.length = nk * ni * nj) {k i j : Nat} (hk : k < nk) (hin : Inside ni nj i j) (hn : value ni nj mu k i j = none)
    (hall : ∀ p ∈ around i j, (value ni nj mu k p.1 p.2).isSome) : ∃ out, regularize true nk ni nj mu = .ok out ∧
      value ni nj out k i j = some (((around i j).map fun p => (value ni nj mu k p.1 p.2).getD 0).sum / 8) := by
  obtain ⟨out, h1, h2, h3⟩ := regularize_spec mu hlen
  refine ⟨out, h1, ?_⟩
  obtain ⟨g1, g2, g3, g4⟩ := hin
  rw [(h3 k i j hk (by omega) (by omega)).2 hn ⟨g1, g2, g3, g4⟩]
  have e : (around i j).map (seen ni nj mu out k i j) = (around i j).map fun p => value ni nj mu k p.1 p.2 := by
    apply List.map_congr_left
    intro p hp
    rw [seen]
    obtain ⟨q1, q2, _⟩ := around_spec ⟨g1, g2, g3, g4⟩ hp
    split
    · exact (h3 k p.1 p.2 hk q1 q2).1 (.inl (hall p hp))
    · rfl
  rw [e]
  have hc : ((around i j).map fun p => value ni nj mu k p.1 p.2).countP Option.isNone = 0 := by
    rw [List.countP_eq_zero]
    intro v hv
    obtain ⟨p, hp, rfl⟩ := List.mem_map.1 hv
    have := hall p hp
    simp only [Option.isSome_iff_ne_none] at this
    simpa using this
  rw [hc, if_neg (by omega), nanmean]
  have hf : ∀ l : List (Nat × Nat), (∀ p ∈ l, (value ni nj mu k p.1 p.2).isSome) → (l.map fun p => value ni nj mu k p.1 p.2).filterMap id = l.map fun p => (value ni nj mu k p.1 p.2).getD 0 := by
    intro l
    induction l with
    | nil => intro _; rfl
    | cons a l ih =>
      intro h
      have ha := h a List.mem_cons_self
      obtain ⟨v, hv⟩ := Option.isSome_iff_exists.1 ha
      rw [List.map_cons, List.map_cons, List.filterMap_cons, hv, ih fun p hp => h p (List.mem_cons_of_mem _ hp)]
      rfl
  rw [hf _ hall]
  have hl : ((around i j).map fun p => (value ni nj mu k p.1 p.2).getD 0).length = 8 := rfl
  rw [hl]
  rfl

example : regularize true 1 3 3 [some 1, some 2, some 3, some 4, none, some 4, some 5, some 6, some 7] = .ok [some 1, some 2, some 3, some 4, some 4, some 4, some 5, some 6, some 7] := by decide +kernel

/-- **C74** The order of the visits matters: a map and its mirror image are filled in a different way. -/
theorem fill_not_symmetric :
    regularize true 1 3 4 [some 1, some 1, some 1, none, some 1, none, none, none, some 1, some 1, some 1, none] = .ok [some 1, some 1, some 1, none, some 1, some 1, some 1, none, some 1, some 1, some 1, none] ∧
    regularize true 1 3 4 [none, some 1, some 1, some 1, none, none, none, some 1, none, some 1, some 1, some 1] = .ok [none, some 1, some 1, some 1, none, none, some 1, some 1, none, some 1, some 1, some 1] := by
  decide +kernel

/-- **C74** In pandas 3 the values are read-only: the map is computed only if no NaN inside has three or less NaN neighbours; otherwise `ValueError` is raised. -/
theorem regularize_readonly {nk ni nj : Nat} (mu : List (Option ℚ)) (hlen : mu.length = nk * ni * nj) : 
    ((∃ k i j, k < nk ∧ Inside ni nj i j ∧ value ni nj mu k i j = none ∧ ((around i j).map fun p => value ni nj mu k p.1 p.2).countP Option.isNone ≤ 3) → regularize false nk ni nj mu = .error .valueError) ∧
    ((¬ ∃ k i j, k < nk ∧ Inside ni nj i j ∧ value ni nj mu k i j = none ∧ ((around i j).map fun p => value ni nj mu k p.1 p.2).countP Option.isNone ≤ 3) → regularize false nk ni nj mu = .ok mu) := by
  classical
  have main : ∀ ps : List (Nat × Nat × Nat), ps.foldlM (fillOne false ni nj) mu =
      if ∃ p ∈ ps, value ni nj mu p.1 p.2.1 p.2.2 = none ∧ (vals ni nj mu p.1 p.2.1 p.2.2).countP Option.isNone ≤ 3 then .error .valueError else .ok mu := by
    intro ps
    induction ps with
    | nil => simp [List.foldlM_nil, pure, Except.pure]
    | cons p ps ih =>
      rw [List.foldlM_cons]
      by_cases h : value ni nj mu p.1 p.2.1 p.2.2 = none ∧ (vals ni nj mu p.1 p.2.1 p.2.2).countP Option.isNone ≤ 3
      · rw [if_pos ⟨p, List.mem_cons_self, h⟩, fillOne, if_neg (by rw [h.1]; simp), if_neg (by omega)]
        rfl
      · have hok : fillOne false ni nj mu p = .ok mu := by
          rw [fillOne]
          by_cases h1 : (value ni nj mu p.1 p.2.1 p.2.2).isSome = true
          · rw [if_pos h1]
          · have hn : value ni nj mu p.1 p.2.1 p.2.2 = none := by simpa using h1
            rw [if_neg h1, if_pos]
            by_contra hc
            exact h ⟨hn, by omega⟩
        rw [hok]
        simp only [bind, Except.bind]
        rw [ih]
        congr 1
        simp only [List.mem_cons, exists_eq_or_imp, h, false_or]
  rw [regularize, if_neg (not_not.2 hlen), main]
  constructor
  · rintro ⟨k, i, j, g1, g2, h1, h2⟩
    exact if_pos ⟨(k, i, j), mem_interior.2 ⟨g1, g2⟩, h1, h2⟩
  · intro hno
    refine if_neg fun ⟨p, hp, h1, h2⟩ => hno ?_
    obtain ⟨g1, g2⟩ := mem_interior.1 hp
    exact ⟨p.1, p.2.1, p.2.2, g1, g2, h1, h2⟩

example : regularize false 1 3 3 [some 1, some 2, some 3, some 4, none, some 4, some 5, some 6, some 7] = .error .valueError := by decide +kernel
example : regularize false 1 3 3 [some 1, some 2, some 3, some 4, some 7, some 4, some 5, some 6, none] = .ok [some 1, some 2, some 3, some 4, some 7, some 4, some 5, some 6, none] := by decide +kernel

/-- **C74** The whole map: the rows are those of `map_rows` and only `mu` changes, by the regularization of the bins. -/
theorem compute_spec {c : Config} (hxy : c.xy.1 < c.xy.2) (hdt : c.dt.1 < c.dt.2) (hn : 0 < c.nxy) (hd : 0 < c.ndt) (f : List ℚ → Fit) (evts : List Evt) (hne : evts ≠ []) (writable : Bool) :
    (∀ e, computeMap writable c f evts = .error e → writable = false ∧ e = .valueError) ∧
    ∀ out, computeMap writable c f evts = .ok out → ∃ mu, regularize writable c.ndt c.nxy c.nxy ((fullMap c f evts).map fun r => r.fit.mu) = .ok mu ∧
      out.length = (fullMap c f evts).length ∧
      ∀ (n : Nat) (r : Out), (fullMap c f evts)[n]? = some r → out[n]? = some { r with fit := { r.fit with mu := (mu[n]?).join } } := by
  have hlen : ((fullMap c f evts).map fun r => r.fit.mu).length = c.ndt * c.nxy * c.nxy := by
    rw [List.length_map, fullMap, merged_eq hxy hdt hn hd]
    simp [cells_length]
  have hreg : (∃ mu, regularize writable c.ndt c.nxy c.nxy ((fullMap c f evts).map fun r => r.fit.mu) = .ok mu ∧ mu.length = ((fullMap c f evts).map fun r => r.fit.mu).length) ∨
      (writable = false ∧ regularize writable c.ndt c.nxy c.nxy ((fullMap c f evts).map fun r => r.fit.mu) = .error .valueError) := by
    cases writable with
    | true =>
      obtain ⟨out, h1, h2, _⟩ := regularize_spec _ hlen
      exact .inl ⟨out, h1, h2⟩
    | false =>
      obtain ⟨g1, g2⟩ := regularize_readonly _ hlen
      by_cases hex : ∃ k i j, k < c.ndt ∧ Inside c.nxy c.nxy i j ∧ value c.nxy c.nxy ((fullMap c f evts).map fun r => r.fit.mu) k i j = none ∧
          ((around i j).map fun p => value c.nxy c.nxy ((fullMap c f evts).map fun r => r.fit.mu) k p.1 p.2).countP Option.isNone ≤ 3
      · exact .inr ⟨rfl, g1 hex⟩
      · exact .inl ⟨_, g2 hex, rfl⟩
  have hc : computeMap writable c f evts = match regularize writable c.ndt c.nxy c.nxy ((fullMap c f evts).map fun r => r.fit.mu) with
    | .error e => .error e
    | .ok mu => .ok (((fullMap c f evts).zip mu).map fun p => { p.1 with fit := { p.1.fit with mu := p.2 } }) := by
    rw [computeMap, if_neg (by omega), if_neg hne]
    rfl
  rw [hc]
  rcases hreg with ⟨mu, h1, h2⟩ | ⟨h0, h1⟩
  · rw [h1]
    refine ⟨fun e h => by simp at h, fun out ho => ?_⟩
    simp only [Except.ok.injEq] at ho
    subst ho
    rw [List.length_map] at h2
    refine ⟨mu, rfl, by simp [h2], ?_⟩
    intro n r hr
    have hnlt := (List.getElem?_eq_some_iff.1 hr).1
    have hm : mu[n]? = some (mu[n]'(by omega)) := List.getElem?_eq_getElem (by omega)
    rw [List.getElem?_map, (List.getElem?_zip_eq_some (z := (r, mu[n]'(by omega)))).2 ⟨hr, hm⟩, hm]
    rfl
  · rw [h1]
    refine ⟨fun e h => ?_, fun out h => by simp at h⟩
    simp only [Except.error.injEq] at h
    exact ⟨h0, h.symm⟩

example : (computeMap true ⟨(0, 20), (0, 10), 2, 1, (1, 100)⟩ (fun v => ⟨some v.length, some v.sum, none, none, none⟩) [⟨5, 5, 3, 7, 0⟩, ⟨10, 5, 3, 8, 3600⟩]).toOption.map (fun t => t.map fun r => (r.fit.mu, r.density)) =
    some [(some 7, some 1), (none, none), (some 8, some 1), (none, none)] := by decide +kernel

/-- **C74** No map is made without bins in the drift time, without bins in the plane or without events. -/
theorem compute_refused (writable : Bool) (c : Config) (f : List ℚ → Fit) (evts : List Evt) :
    (c.ndt = 0 → computeMap writable c f evts = .error .zeroDivision) ∧ (c.nxy = 0 → computeMap writable c f evts = .error .zeroDivision) ∧
    (0 < c.ndt → 0 < c.nxy → evts = [] → computeMap writable c f evts = .error .valueError) := by
  refine ⟨fun h => if_pos (Or.inl h), fun h => if_pos (Or.inr h), fun h1 h2 h3 => ?_⟩
  rw [computeMap, if_neg (by omega), if_pos h3]

example : computeMap true ⟨(0, 20), (0, 10), 0, 1, (1, 100)⟩ (fun v => ⟨some v.length, some v.sum, none, none, none⟩) [⟨5, 5, 3, 7, 0⟩] = .error .zeroDivision := (compute_refused _ _ _ _).2.1 rfl

/-- **C74** The value given by the fit of a bin: the centre of the gaussian only if it is between half and one and a half times the median (closed below), the median of at least five values otherwise, or NaN. -/
theorem gaussian_value (fit : List ℚ → Option ℚ) (minEvents : Nat) (vals : List ℚ) (m : ℚ) (h : gaussianMu fit minEvents vals = some m) :
    (minEvents ≤ vals.length ∧ fit vals = some m ∧ 1 / 2 * Wfm.median vals ≤ m ∧ m < 3 / 2 * Wfm.median vals) ∨ (5 ≤ vals.length ∧ m = Wfm.median vals) := by
  rw [gaussianMu] at h
  have hmed : medianMu vals = some m → 5 ≤ vals.length ∧ m = Wfm.median vals := by
    intro h
    rw [medianMu] at h
    split at h
    · cases h
    · simp only [Option.some.injEq] at h
      exact ⟨by omega, h.symm⟩
  split at h
  · exact .inr (hmed h)
  · cases hf : fit vals with
    | none => rw [hf] at h; cases h
    | some v =>
      rw [hf] at h
      simp only at h
      split at h
      · rename_i hw
        simp only [Option.some.injEq] at h
        subst h
        exact .inl ⟨by omega, rfl, within_iff.1 hw⟩
      · exact .inr (hmed h)

example : gaussianMu (fun _ => some 100) 3 [1, 2, 3, 4, 5] = some 3 := by decide +kernel
example : gaussianMu (fun _ => some 4) 3 [1, 2, 3, 4, 5] = some 4 := by decide +kernel

end Verif.KrMap
