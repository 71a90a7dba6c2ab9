import Verif.Model.Clusters
import Mathlib.Logic.Relation
import Mathlib.Algebra.BigOperators.Group.List.Basic
import Mathlib.Algebra.Order.BigOperators.Group.List
/-!
# The loop of DBSCAN on any graph
-/
namespace Verif.Clusters

/-- The neighbourhoods of a symmetric and reflexive relation on the first `n` numbers. -/
structure Graph (n : Nat) (nb : Nat → List Nat) : Prop where
  lt : ∀ i < n, ∀ j ∈ nb i, j < n
  symm : ∀ i < n, ∀ j ∈ nb i, i ∈ nb j
  refl : ∀ i < n, i ∈ nb i

/-- A step between core points. -/
def Step (n : Nat) (core : Nat → Bool) (nb : Nat → List Nat) (i j : Nat) : Prop := i < n ∧ core i = true ∧ core j = true ∧ j ∈ nb i

/-- A chain of core points. -/
def Conn (n : Nat) (core : Nat → Bool) (nb : Nat → List Nat) : Nat → Nat → Prop := Relation.ReflTransGen (Step n core nb)

theorem getD_set {l : List Int} {i j : Nat} {c : Int} (hi : i < l.length) : (l.set i c).getD j 0 = if j = i then c else l.getD j 0 := by
  simp only [List.getD_eq_getElem?_getD, List.getElem?_set]
  by_cases h : i = j
  · subst h; simp [hi]
  · simp [h, Ne.symm h]

/-- Pending work. -/
def pend (n : Nat) (nb : Nat → List Nat) (l : List Int) : Nat := ((List.range n).map fun i => if l.getD i 0 = -1 then (nb i).length else 0).sum

theorem pend_set {n : Nat} {nb : Nat → List Nat} {l : List Int} {i : Nat} {c : Int} (hl : l.length = n) (hi : i < n) (h1 : l.getD i 0 = -1) (hc : c ≠ -1) :
    pend n nb (l.set i c) + (nb i).length ≤ pend n nb l := by
  have hs : ∀ (xs : List Nat), xs.Nodup → i ∈ xs → (xs.map fun j => if (l.set i c).getD j 0 = -1 then (nb j).length else 0).sum + (nb i).length ≤
      (xs.map fun j => if l.getD j 0 = -1 then (nb j).length else 0).sum := by
    intro xs
    induction xs with
    | nil => intro _ h; cases h
    | cons x xs ih =>
      intro hn hm
      have hle : ∀ ys : List Nat, (ys.map fun j => if (l.set i c).getD j 0 = -1 then (nb j).length else 0).sum ≤ (ys.map fun j => if l.getD j 0 = -1 then (nb j).length else 0).sum := by
        intro ys
        apply List.sum_le_sum
        intro j _
        rw [getD_set (by omega)]
        by_cases hj : j = i
        · subst hj; simp [hc]
        · simp [hj]
      rw [List.map_cons, List.map_cons, List.sum_cons, List.sum_cons]
      rcases eq_or_ne x i with rfl | hx
      · have := hle xs
        have e1 : (l.set x c).getD x 0 = c := by rw [getD_set (by omega)]; simp
        rw [e1, if_neg hc, if_pos h1]
        omega
      · have hm' : i ∈ xs := by
          rcases List.mem_cons.1 hm with h | h
          · exact absurd h.symm hx
          · exact h
        have := ih (List.nodup_cons.1 hn).2 hm'
        have e1 : (l.set i c).getD x 0 = l.getD x 0 := by rw [getD_set (by omega)]; simp [hx]
        rw [e1]
        omega
  exact hs _ List.nodup_range (List.mem_range.2 hi)

/-- What holds during the search from `s` with label `c`, when `L` are the labels before. -/
structure Inv (n : Nat) (core : Nat → Bool) (nb : Nat → List Nat) (c : Int) (s : Nat) (L : List Int) (l : List Int) (st : List Nat) : Prop where
  len : l.length = n
  old : ∀ i, L.getD i 0 ≠ -1 → l.getD i 0 = L.getD i 0
  new : ∀ i < n, L.getD i 0 = -1 → l.getD i 0 = -1 ∨ (l.getD i 0 = c ∧ ∃ k < n, core k = true ∧ Conn n core nb s k ∧ i ∈ nb k)
  stk : ∀ v ∈ st, v < n ∧ ∃ k < n, core k = true ∧ Conn n core nb s k ∧ v ∈ nb k
  clo : ∀ i < n, core i = true → L.getD i 0 = -1 → l.getD i 0 ≠ -1 → ∀ j ∈ nb i, l.getD j 0 ≠ -1 ∨ j ∈ st
  seed : l.getD s 0 ≠ -1 ∨ s ∈ st

theorem search_inv {n : Nat} {core : Nat → Bool} {nb : Nat → List Nat} (hg : Graph n nb) {c : Int} (hc : c ≠ -1) {s : Nat} {L : List Int} :
    ∀ (fuel : Nat) (l : List Int) (st : List Nat), Inv n core nb c s L l st → pend n nb l + st.length ≤ fuel → Inv n core nb c s L (search core nb c fuel l st) []
  | 0, l, st, h, hf => by
    have : st = [] := List.length_eq_zero_iff.1 (by omega)
    subst this
    simpa [search] using h
  | _ + 1, l, [], h, _ => by simpa [search] using h
  | fuel + 1, l, i :: st, h, hf => by
    obtain ⟨hi, k, hk, hck, hcon, hik⟩ := h.stk i List.mem_cons_self
    rw [search]
    by_cases h1 : l.getD i 0 = -1
    · rw [if_pos h1]
      have hLi : L.getD i 0 = -1 := by
        by_contra hne
        exact hne ((h.old i hne).symm.trans h1)
      have hset : ∀ j, (l.set i c).getD j 0 = if j = i then c else l.getD j 0 := fun j => getD_set (by rw [h.len]; exact hi)
      have hmono : ∀ j, l.getD j 0 ≠ -1 → (l.set i c).getD j 0 ≠ -1 := by
        intro j hj
        rw [hset]
        split
        · exact hc
        · exact hj
      have hp := pend_set (nb := nb) h.len hi h1 hc
      have common : ∀ st', (∀ v ∈ st', v < n ∧ ∃ k < n, core k = true ∧ Conn n core nb s k ∧ v ∈ nb k) → (∀ v ∈ st, v ∈ st') →
          (core i = true → ∀ j ∈ nb i, (l.set i c).getD j 0 ≠ -1 ∨ j ∈ st') → Inv n core nb c s L (l.set i c) st' := by
        intro st' hs1 hs2 hs3
        refine ⟨by simpa using h.len, ?_, ?_, hs1, ?_, ?_⟩
        · intro j hj
          have hji : j ≠ i := fun e => hj (e ▸ hLi)
          rw [hset, if_neg hji]
          exact h.old j hj
        · intro j hj hLj
          rw [hset]
          by_cases hji : j = i
          · subst hji
            rw [if_pos rfl]
            exact .inr ⟨rfl, k, hk, hck, hcon, hik⟩
          · rw [if_neg hji]
            exact h.new j hj hLj
        · intro j hj hcj hLj hlj v hv
          by_cases hji : j = i
          · subst hji
            exact hs3 hcj v hv
          · rw [hset, if_neg hji] at hlj
            rcases h.clo j hj hcj hLj hlj v hv with hh | hh
            · exact .inl (hmono v hh)
            · rcases List.mem_cons.1 hh with rfl | hh
              · left; rw [hset, if_pos rfl]; exact hc
              · exact .inr (hs2 v hh)
        · rcases h.seed with hh | hh
          · exact .inl (hmono s hh)
          · rcases List.mem_cons.1 hh with rfl | hh
            · left; rw [hset, if_pos rfl]; exact hc
            · exact .inr (hs2 s hh)
      by_cases hci : core i = true
      · simp only [hci, if_true]
        apply search_inv hg hc fuel
        · apply common
          · intro v hv
            rcases List.mem_append.1 hv with hv | hv
            · have hv' := (List.mem_filter.1 (List.mem_reverse.1 hv)).1
              exact ⟨hg.lt i hi v hv', i, hi, hci, hcon.tail ⟨hk, hck, hci, hik⟩, hv'⟩
            · exact h.stk v (List.mem_cons_of_mem _ hv)
          · intro v hv; exact List.mem_append_right _ hv
          · intro _ j hj
            by_cases hj1 : (l.set i c).getD j 0 = -1
            · exact .inr (List.mem_append_left _ (List.mem_reverse.2 (List.mem_filter.2 ⟨hj, by simpa using hj1⟩)))
            · exact .inl hj1
        · have := List.length_filter_le (fun v => decide ((l.set i c).getD v 0 = -1)) (nb i)
          simp only [List.length_append, List.length_reverse, List.length_cons] at hf ⊢
          omega
      · simp only [hci]
        apply search_inv hg hc fuel
        · apply common
          · intro v hv; exact h.stk v (List.mem_cons_of_mem _ hv)
          · intro v hv; exact hv
          · intro hh; exact absurd hh hci
        · simp only [List.length_cons] at hf
          simp only [Bool.false_eq_true, if_false]
          omega
    · rw [if_neg h1]
      apply search_inv hg hc fuel
      · refine ⟨h.len, h.old, h.new, fun v hv => h.stk v (List.mem_cons_of_mem _ hv), ?_, ?_⟩
        · intro j hj hcj hLj hlj v hv
          rcases h.clo j hj hcj hLj hlj v hv with hh | hh
          · exact .inl hh
          · rcases List.mem_cons.1 hh with rfl | hh
            · exact .inl h1
            · exact .inr hh
        · rcases h.seed with hh | hh
          · exact .inl hh
          · rcases List.mem_cons.1 hh with rfl | hh
            · exact .inl h1
            · exact .inr hh
      · simp only [List.length_cons] at hf
        omega

theorem conn_symm {n : Nat} {core : Nat → Bool} {nb : Nat → List Nat} (hg : Graph n nb) {i j : Nat} (h : Conn n core nb i j) : Conn n core nb j i := by
  have : Std.Symm (Step n core nb) := ⟨fun a b ⟨h1, h2, h3, h4⟩ => ⟨hg.lt a h1 b h4, h3, h2, hg.symm a h1 b h4⟩⟩
  exact Relation.ReflTransGen.symmetric.symm _ _ h

/-- All the neighbours of the core points with a label have a label. -/
def Closed (n : Nat) (core : Nat → Bool) (nb : Nat → List Nat) (l : List Int) : Prop :=
  ∀ i < n, core i = true → l.getD i 0 ≠ -1 → ∀ j ∈ nb i, l.getD j 0 ≠ -1

theorem conn_closed {n : Nat} {core : Nat → Bool} {nb : Nat → List Nat} {l : List Int} (hcl : Closed n core nb l) {i j : Nat} (h : Conn n core nb i j)
    (hi : l.getD i 0 ≠ -1) : l.getD j 0 ≠ -1 := by
  induction h with
  | refl => exact hi
  | tail _ hs ih => exact hcl _ hs.1 hs.2.1 ih _ hs.2.2.2

/-- The result of a search. -/
theorem search_spec {n : Nat} {core : Nat → Bool} {nb : Nat → List Nat} (hg : Graph n nb) {c : Int} (hc : 0 ≤ c) {s : Nat} {L : List Int}
    (hL : L.length = n) (hcl : Closed n core nb L) (hs : s < n) (hcs : core s = true) (hLs : L.getD s 0 = -1) (l : List Int) (hl : l = search core nb c (enough n nb) L [s]) :
    l.length = n ∧ (∀ i, L.getD i 0 ≠ -1 → l.getD i 0 = L.getD i 0) ∧
    (∀ i < n, L.getD i 0 = -1 → (l.getD i 0 = c ∧ ∃ k < n, core k = true ∧ Conn n core nb s k ∧ i ∈ nb k) ∨ l.getD i 0 = -1) ∧
    (∀ k < n, core k = true → Conn n core nb s k → L.getD k 0 = -1 ∧ l.getD k 0 = c) ∧ Closed n core nb l := by
  have hc' : c ≠ -1 := by omega
  have hp : pend n nb L ≤ ((List.range n).map fun i => (nb i).length).sum := by
    apply List.sum_le_sum
    intro i _
    split <;> simp
  have hinv : Inv n core nb c s L l [] := by
    rw [hl]
    apply search_inv hg hc'
    · refine ⟨hL, fun _ _ => rfl, fun i _ h => .inl h, ?_, ?_, .inr (by simp)⟩
      · intro v hv
        rw [List.mem_singleton.1 hv]
        exact ⟨hs, s, hs, hcs, .refl, hg.refl s hs⟩
      · intro i _ _ h1 h2
        exact absurd h1 h2
    · simp only [enough, List.length_singleton]
      omega
  have hlab : ∀ i < n, L.getD i 0 = -1 → l.getD i 0 ≠ -1 → l.getD i 0 = c := by
    intro i hi h1 h2
    rcases hinv.new i hi h1 with h | h
    · exact absurd h h2
    · exact h.1
  have hconn : ∀ k, Conn n core nb s k → L.getD k 0 = -1 ∧ l.getD k 0 = c ∧ k < n := by
    intro k hk
    have hbefore : L.getD k 0 = -1 := by
      by_contra hne
      exact conn_closed hcl (conn_symm hg hk) hne hLs
    induction hk with
    | refl => 
      have h0 : l.getD s 0 ≠ -1 := by simpa using hinv.seed
      exact ⟨hbefore, hlab s hs hbefore h0, hs⟩
    | @tail a b hab hst ih =>
      have hLa : L.getD a 0 = -1 := by
        by_contra hne
        exact hcl a hst.1 hst.2.1 hne b hst.2.2.2 hbefore
      obtain ⟨_, h2, h3⟩ := ih hLa
      have hb : b < n := hg.lt a h3 b hst.2.2.2
      have : l.getD b 0 ≠ -1 := by
        have := hinv.clo a h3 hst.2.1 hLa (by rw [h2]; exact hc') b hst.2.2.2
        simpa using this
      exact ⟨hbefore, hlab b hb hbefore this, hb⟩
  refine ⟨hinv.len, hinv.old, ?_, fun k _ _ h => ⟨(hconn k h).1, (hconn k h).2.1⟩, ?_⟩
  · intro i hi h
    rcases hinv.new i hi h with h | h
    · exact .inr h
    · exact .inl h
  · intro i hi hci hli j hj
    by_cases h : L.getD i 0 = -1
    · have := hinv.clo i hi hci h hli j hj
      simpa using this
    · have := hcl i hi hci h j hj
      rw [hinv.old j this]
      exact this

/-- What holds after the first `m` points have been visited and `c` clusters found. -/
structure Out (n : Nat) (core : Nat → Bool) (nb : Nat → List Nat) (m : Nat) (l : List Int) (c : Int) : Prop where
  len : l.length = n
  pos : 0 ≤ c
  val : ∀ i < n, l.getD i 0 = -1 ∨ (0 ≤ l.getD i 0 ∧ l.getD i 0 < c)
  clo : Closed n core nb l
  done : ∀ i < n, i < m → core i = true → l.getD i 0 ≠ -1
  same : ∀ i < n, ∀ j < n, core i = true → core j = true → l.getD i 0 ≠ -1 → l.getD j 0 ≠ -1 → (l.getD i 0 = l.getD j 0 ↔ Conn n core nb i j)
  border : ∀ i < n, l.getD i 0 ≠ -1 → ∃ k < n, core k = true ∧ i ∈ nb k ∧ l.getD k 0 = l.getD i 0
  least : ∀ i < n, ∀ k < n, core k = true → k ∈ nb i → l.getD k 0 ≠ -1 → l.getD i 0 ≤ l.getD k 0
  used : ∀ t : Int, 0 ≤ t → t < c → ∃ s < n, s < m ∧ core s = true ∧ l.getD s 0 = t
  order : ∀ i < n, 0 < l.getD i 0 → ∃ j < n, core j = true ∧ l.getD j 0 = l.getD i 0 - 1 ∧ ∀ k < n, core k = true → l.getD k 0 = l.getD i 0 → j < k

theorem out_step {n : Nat} {core : Nat → Bool} {nb : Nat → List Nat} (hg : Graph n nb) {m : Nat} (hm : m < n) {st : List Int × Int}
    (h : Out n core nb m st.1 st.2) : Out n core nb (m + 1) (round n core nb st m).1 (round n core nb st m).2 := by
  obtain ⟨L, c⟩ := st
  simp only at h
  by_cases hskip : L.getD m 0 ≠ -1 ∨ core m = false
  · have e : round n core nb (L, c) m = (L, c) := by simp only [round]; rw [if_pos hskip]
    rw [e]
    refine ⟨h.len, h.pos, h.val, h.clo, ?_, h.same, h.border, h.least, ?_, h.order⟩
    · intro i hi him hci
      rcases Nat.lt_succ_iff_lt_or_eq.1 him with h1 | rfl
      · exact h.done i hi h1 hci
      · rcases hskip with h1 | h1
        · exact h1
        · rw [hci] at h1; cases h1
    · intro t h1 h2
      obtain ⟨s, g1, g2, g3⟩ := h.used t h1 h2
      exact ⟨s, g1, by omega, g3⟩
  · push Not at hskip
    obtain ⟨hLm, hcm⟩ := hskip
    have hcm : core m = true := by simpa using hcm
    generalize hl : search core nb c (enough n nb) L [m] = l
    have e : round n core nb (L, c) m = (l, c + 1) := by
      simp only [round]; rw [if_neg (by simp [hLm, hcm, ← List.getD_eq_getElem?_getD]), hl]
    rw [e]
    show Out n core nb (m + 1) l (c + 1)
    have hpos : 0 ≤ c := h.pos
    obtain ⟨s1, s2, s3, s4, s5⟩ := search_spec hg hpos h.len h.clo hm hcm hLm l hl.symm
    have hold : ∀ i < n, L.getD i 0 ≠ -1 → l.getD i 0 = L.getD i 0 ∧ 0 ≤ l.getD i 0 ∧ l.getD i 0 < c := by
      intro i hi hne
      have := s2 i hne
      rcases h.val i hi with h1 | h1
      · exact absurd h1 hne
      · rw [this]; exact ⟨rfl, h1⟩
    have hnewc : ∀ i < n, l.getD i 0 = c → L.getD i 0 = -1 := by
      intro i hi h1
      by_contra hne
      have := (hold i hi hne).2.2
      omega
    refine ⟨s1, by omega, ?_, s5, ?_, ?_, ?_, ?_, ?_, ?_⟩
    · intro i hi
      by_cases h1 : L.getD i 0 = -1
      · rcases s3 i hi h1 with h2 | h2
        · right; simp only [h2.1]; omega
        · exact .inl h2
      · have := hold i hi h1
        right; omega
    · intro i hi him hci
      rcases Nat.lt_succ_iff_lt_or_eq.1 him with h1 | rfl
      · have := h.done i hi h1 hci
        rw [s2 i this]; exact this
      · have := (s4 i hm hcm .refl).2
        simp only [this]; omega
    · intro i hi j hj hci hcj hli hlj
      have key : ∀ a < n, core a = true → L.getD a 0 = -1 → l.getD a 0 ≠ -1 → l.getD a 0 = c ∧ Conn n core nb m a := by
        intro a ha hca h1 h2
        rcases s3 a ha h1 with ⟨h3, k, hk, hck, hmk, hak⟩ | h3
        · exact ⟨h3, hmk.tail ⟨hk, hck, hca, hak⟩⟩
        · exact absurd h3 h2
      by_cases h1 : L.getD i 0 = -1 <;> by_cases h2 : L.getD j 0 = -1
      · obtain ⟨a1, a2⟩ := key i hi hci h1 hli
        obtain ⟨b1, b2⟩ := key j hj hcj h2 hlj
        exact ⟨fun _ => (conn_symm hg a2).trans b2, fun _ => a1.trans b1.symm⟩
      · obtain ⟨a1, a2⟩ := key i hi hci h1 hli
        have b := hold j hj h2
        constructor
        · intro hh; omega
        · intro hh
          exact absurd h1 (conn_closed h.clo (conn_symm hg hh) h2)
      · obtain ⟨b1, b2⟩ := key j hj hcj h2 hlj
        have a := hold i hi h1
        constructor
        · intro hh; omega
        · intro hh
          exact absurd h2 (conn_closed h.clo hh h1)
      · rw [s2 i h1, s2 j h2]
        exact h.same i hi j hj hci hcj h1 h2
    · intro i hi hli
      by_cases h1 : L.getD i 0 = -1
      · rcases s3 i hi h1 with ⟨h3, k, hk, hck, hmk, hik⟩ | h3
        · exact ⟨k, hk, hck, hik, ((s4 k hk hck hmk).2).trans h3.symm⟩
        · exact absurd h3 hli
      · obtain ⟨k, hk, hck, hik, he⟩ := h.border i hi h1
        refine ⟨k, hk, hck, hik, ?_⟩
        rw [s2 k (by rw [he]; exact h1), s2 i h1, he]
    · intro i hi k hk hck hki hlk
      by_cases h1 : L.getD k 0 = -1
      · rcases s3 k hk h1 with ⟨h3, _⟩ | h3
        · rw [h3]
          by_cases h4 : L.getD i 0 = -1
          · rcases s3 i hi h4 with ⟨h5, _⟩ | h5 <;> rw [h5]
            omega
          · have := hold i hi h4; omega
        · exact absurd h3 hlk
      · have h4 := h.clo k hk hck h1 i (hg.symm i hi k hki)
        rw [s2 k h1, s2 i h4]
        exact h.least i hi k hk hck hki h1
    · intro t h1 h2
      rcases lt_or_ge t c with h3 | h3
      · obtain ⟨s, g1, g2, g3, g4⟩ := h.used t h1 h3
        refine ⟨s, g1, by omega, g3, ?_⟩
        rw [s2 s (by omega)]; exact g4
      · have : t = c := by omega
        subst this
        exact ⟨m, hm, by omega, hcm, (s4 m hm hcm .refl).2⟩
    · intro i hi hpos'
      by_cases h1 : L.getD i 0 = -1
      · rcases s3 i hi h1 with ⟨h3, _⟩ | h3
        · obtain ⟨s, g1, g2, g3, g4⟩ := h.used (c - 1) (by omega) (by omega)
          refine ⟨s, g1, g3, ?_, ?_⟩
          · rw [s2 s (by omega)]; omega
          · intro k hk hck hlk
            have h5 := hnewc k hk (by omega)
            by_contra hlt
            exact h.done k hk (by omega) hck h5
        · omega
      · obtain ⟨j, g1, g2, g3, g4⟩ := h.order i hi (by rw [← s2 i h1]; exact hpos')
        have hi' := hold i hi h1
        refine ⟨j, g1, g2, ?_, ?_⟩
        · rw [s2 j (by omega), s2 i h1]; exact g3
        · intro k hk hck hlk
          apply g4 k hk hck
          by_cases h5 : L.getD k 0 = -1
          · rcases s3 k hk h5 with ⟨h6, _⟩ | h6 <;> omega
          · rw [← s2 k h5, hlk, s2 i h1]

/-- The labels given to `n` points. -/
theorem dbscanInner_out {n : Nat} {core : Nat → Bool} {nb : Nat → List Nat} (hg : Graph n nb) : ∃ c, Out n core nb n (dbscanInner n core nb) c := by
  have key : ∀ m ≤ n, Out n core nb m ((List.range m).foldl (round n core nb) (List.replicate n (-1), 0)).1 ((List.range m).foldl (round n core nb) (List.replicate n (-1), 0)).2 := by
    intro m
    induction m with
    | zero =>
      intro _
      have e : ∀ i < n, (List.replicate n (-1 : Int)).getD i 0 = -1 := by
        intro i hi; rw [List.getD_eq_getElem?_getD, List.getElem?_replicate, if_pos hi]; rfl
      refine ⟨by simp, le_refl _, fun i hi => .inl (e i hi), ?_, ?_, ?_, ?_, ?_, ?_, ?_⟩
      · intro i hi _ h; exact absurd (e i hi) h
      · intro i _ h; omega
      · intro i hi _ _ _ _ h; exact absurd (e i hi) h
      · intro i hi h; exact absurd (e i hi) h
      · intro i _ k hk _ _ h; exact absurd (e k hk) h
      · intro t h1 h2; change t < 0 at h2; omega
      · intro i hi h
        have := e i hi
        change 0 < (List.replicate n (-1 : Int)).getD i 0 at h
        omega
    | succ m ih =>
      intro hm
      rw [List.range_succ, List.foldl_append]
      exact out_step hg (by omega) (ih (by omega))
  exact ⟨_, key n le_rfl⟩

end Verif.Clusters
