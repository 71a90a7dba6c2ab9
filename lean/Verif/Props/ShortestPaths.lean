import Verif.Spec.ShortestPaths
import Verif.Props.Blobs
import Verif.Props.PaolinaTotal
import Verif.Lemmas.Lists
import Mathlib.Algebra.Order.Monoid.Basic
/-!
# C119: distances along a track
-/
namespace Verif.ShortestPaths
open Verif (PyErr)

section dijkstra
variable {α K : Type} [DecidableEq α] [AddCommMonoid K] [LinearOrder K] [IsOrderedAddMonoid K]

theorem lookup_mem {β : Type} {l : List (α × β)} {u : α} {x : β} (h : l.lookup u = some x) : (u, x) ∈ l := by
  induction l with
  | nil => cases h
  | cons p l ih =>
    obtain ⟨k, v⟩ := p
    rw [List.lookup_cons] at h
    by_cases hk : u = k
    · subst hk
      simp only [beq_self_eq_true] at h
      injection h with h
      subst h
      exact List.mem_cons_self
    · have : (u == k) = false := by simpa using hk
      rw [this] at h
      exact List.mem_cons_of_mem _ (ih h)

theorem lookup_none {β : Type} {l : List (α × β)} {u : α} : l.lookup u = none ↔ u ∉ l.map Prod.fst := by
  induction l with
  | nil => simp
  | cons p l ih =>
    obtain ⟨k, v⟩ := p
    rw [List.lookup_cons]
    by_cases hk : u = k
    · subst hk
      simp
    · have : (u == k) = false := by simpa using hk
      rw [this]
      simp only [List.map_cons, List.mem_cons, not_or]
      rw [ih]
      exact ⟨fun h => ⟨hk, h⟩, fun h => h.2⟩

theorem lookup_of_mem {β : Type} {l : List (α × β)} (hn : (l.map Prod.fst).Nodup) {u : α} {x : β} (h : (u, x) ∈ l) : l.lookup u = some x := by
  induction l with
  | nil => cases h
  | cons p l ih =>
    obtain ⟨k, v⟩ := p
    rw [List.map_cons, List.nodup_cons] at hn
    rw [List.lookup_cons]
    rcases List.mem_cons.1 h with h' | h'
    · cases h'; simp
    · have hk : u ≠ k := by
        rintro rfl
        exact hn.1 (List.mem_map.2 ⟨_, h', rfl⟩)
      have : (u == k) = false := by simpa using hk
      rw [this]
      exact ih hn.2 h'

theorem minEntry_spec : ∀ {l : List (K × Nat × α)} {m : K × Nat × α}, minEntry l = some m → m ∈ l ∧ ∀ e ∈ l, m.1 ≤ e.1 := by
  intro l
  induction l with
  | nil => intro m h; cases h
  | cons e es ih =>
    intro m h
    rw [minEntry] at h
    cases he : minEntry es with
    | none =>
      rw [he] at h
      injection h with h
      subst h
      have : es = [] := by
        cases es with
        | nil => rfl
        | cons a es =>
          rw [minEntry] at he
          split at he <;> cases he
      subst this
      exact ⟨List.mem_cons_self, fun e' h' => by rw [List.mem_singleton] at h'; rw [h']⟩
    | some m' =>
      rw [he] at h
      injection h with h
      obtain ⟨i1, i2⟩ := ih he
      by_cases hl : less m' e = true
      · rw [if_pos hl] at h
        subst h
        refine ⟨List.mem_cons_of_mem _ i1, fun e' h' => ?_⟩
        rcases List.mem_cons.1 h' with h' | h'
        · subst h'
          unfold less at hl
          rcases (of_decide_eq_true hl) with h | h
          · exact h.le
          · exact h.1.le
        · exact i2 e' h'
      · rw [if_neg hl] at h
        subst h
        refine ⟨List.mem_cons_self, fun e' h' => ?_⟩
        have hle : e.1 ≤ m'.1 := by
          by_contra hc
          exact hl (by unfold less; exact decide_eq_true (.inl (not_le.1 hc)))
        rcases List.mem_cons.1 h' with h' | h'
        · rw [h']
        · exact hle.trans (i2 e' h')

theorem minEntry_none {l : List (K × Nat × α)} (h : minEntry l = none) : l = [] := by
  cases l with
  | nil => rfl
  | cons a es =>
    rw [minEntry] at h
    split at h <;> cases h

variable {nodes : List α} {adj : α → α → Bool} {w : α → α → K}

theorem chain_nodes {a b : α} {l : K} (h : Chain nodes adj w a b l) : a ∈ nodes ∧ b ∈ nodes := by
  induction h with
  | here ha => exact ⟨ha, ha⟩
  | step _ hc _ ih => exact ⟨ih.1, hc⟩

/-- What holds before each round. -/
structure Inv (nodes : List α) (adj : α → α → Bool) (w : α → α → K) (s : α) (st : State α K) : Prop where
  fin : ∀ p ∈ st.dist, IsDistance nodes adj w s p.1 p.2
  nodup : (st.dist.map Prod.fst).Nodup
  fringe : ∀ e ∈ st.fringe, Chain nodes adj w s e.2.2 e.1
  seen : ∀ u x, st.seen.lookup u = some x → ∃ c, (x, c, u) ∈ st.fringe
  src : ∃ c, (0, c, s) ∈ st.fringe
  closed : ∀ p ∈ st.dist, ∀ u ∈ nodes, adj p.1 u = true → u ∈ st.dist.map Prod.fst ∨ ∃ x c, (x, c, u) ∈ st.fringe ∧ x ≤ p.2 + w p.1 u

theorem relax_spec {s : α} {d : K} {v : α} (hv : Chain nodes adj w s v d) : ∀ (us : List α) (st : State α K), (∀ u ∈ us, u ∈ nodes ∧ adj v u = true) → (∀ p ∈ st.dist, IsDistance nodes adj w s p.1 p.2) →
    (∀ e ∈ st.fringe, Chain nodes adj w s e.2.2 e.1) → (∀ u x, st.seen.lookup u = some x → ∃ c, (x, c, u) ∈ st.fringe) →
    ∃ st', relax w d v st us = .ok st' ∧ st'.dist = st.dist ∧ (∀ e ∈ st.fringe, e ∈ st'.fringe) ∧ (∀ e ∈ st'.fringe, Chain nodes adj w s e.2.2 e.1) ∧
      (∀ u x, st'.seen.lookup u = some x → ∃ c, (x, c, u) ∈ st'.fringe) ∧ ∀ u ∈ us, u ∈ st.dist.map Prod.fst ∨ ∃ x c, (x, c, u) ∈ st'.fringe ∧ x ≤ d + w v u := by
  intro us
  induction us with
  | nil =>
    intro st _ _ h2 h3
    exact ⟨st, rfl, rfl, fun _ h => h, h2, h3, fun u hu => by cases hu⟩
  | cons u us ih =>
    intro st h0 h1 h2 h3
    have hu := h0 u List.mem_cons_self
    have hch : Chain nodes adj w s u (d + w v u) := .step hv hu.1 hu.2
    have h0' : ∀ u ∈ us, u ∈ nodes ∧ adj v u = true := fun x hx => h0 x (List.mem_cons_of_mem _ hx)
    have hpush : ∃ st', relax w d v (push st u (d + w v u)) us = .ok st' ∧ st'.dist = st.dist ∧ (∀ e ∈ st.fringe, e ∈ st'.fringe) ∧ (∀ e ∈ st'.fringe, Chain nodes adj w s e.2.2 e.1) ∧
        (∀ u x, st'.seen.lookup u = some x → ∃ c, (x, c, u) ∈ st'.fringe) ∧ ∀ u' ∈ u :: us, u' ∈ st.dist.map Prod.fst ∨ ∃ x c, (x, c, u') ∈ st'.fringe ∧ x ≤ d + w v u' := by
      obtain ⟨st', r1, r2, r3, r4, r5, r6⟩ := ih (push st u (d + w v u)) h0' h1
        (fun e he => by
          rcases List.mem_cons.1 he with he | he
          · subst he; exact hch
          · exact h2 e he)
        (fun u' x hx => by
          change ((u, d + w v u) :: st.seen).lookup u' = some x at hx
          rw [List.lookup_cons] at hx
          by_cases hk : u' = u
          · subst hk
            simp only [beq_self_eq_true] at hx
            injection hx with hx
            subst hx
            exact ⟨st.count, List.mem_cons_self⟩
          · have : (u' == u) = false := by simpa using hk
            rw [this] at hx
            obtain ⟨c, hc⟩ := h3 u' x hx
            exact ⟨c, List.mem_cons_of_mem _ hc⟩)
      refine ⟨st', r1, r2, fun e he => r3 e (List.mem_cons_of_mem _ he), r4, r5, fun u' hu' => ?_⟩
      rcases List.mem_cons.1 hu' with hu' | hu'
      · subst hu'
        exact .inr ⟨_, _, r3 _ List.mem_cons_self, le_refl _⟩
      · exact r6 u' hu'
    rw [relax]
    cases hl : st.dist.lookup u with
    | some du =>
      have hmem := lookup_mem hl
      have hle : ¬ d + w v u < du := not_lt.2 ((h1 _ hmem).2 _ hch)
      dsimp only
      rw [if_neg hle]
      obtain ⟨st', r1, r2, r3, r4, r5, r6⟩ := ih st h0' h1 h2 h3
      refine ⟨st', r1, r2, r3, r4, r5, fun u' hu' => ?_⟩
      rcases List.mem_cons.1 hu' with hu' | hu'
      · subst hu'
        exact .inl (List.mem_map.2 ⟨_, hmem, rfl⟩)
      · exact r6 u' hu'
    | none =>
      dsimp only
      cases hs : st.seen.lookup u with
      | none => exact hpush
      | some x =>
        dsimp only
        by_cases hlt : d + w v u < x
        · rw [if_pos hlt]; exact hpush
        · rw [if_neg hlt]
          obtain ⟨st', r1, r2, r3, r4, r5, r6⟩ := ih st h0' h1 h2 h3
          refine ⟨st', r1, r2, r3, r4, r5, fun u' hu' => ?_⟩
          rcases List.mem_cons.1 hu' with hu' | hu'
          · subst hu'
            obtain ⟨c, hc⟩ := h3 _ _ hs
            exact .inr ⟨x, c, r3 _ hc, not_lt.1 hlt⟩
          · exact r6 u' hu'

theorem min_below {s : α} {st : State α K} (hI : Inv nodes adj w s st) (hw : ∀ a ∈ nodes, ∀ b ∈ nodes, adj a b = true → 0 ≤ w a b) {m : K × Nat × α}
    (hm : minEntry (st.fringe.filter fun e => (st.dist.lookup e.2.2).isNone) = some m) {u : α} {x : K} (h : Chain nodes adj w s u x) (hu : u ∉ st.dist.map Prod.fst) : m.1 ≤ x := by
  have hmin := (minEntry_spec hm).2
  have entry : ∀ y c u, (y, c, u) ∈ st.fringe → u ∉ st.dist.map Prod.fst → m.1 ≤ y := fun y c u he hu =>
    hmin (y, c, u) (List.mem_filter.2 ⟨he, by rw [lookup_none.2 hu]; rfl⟩)
  induction h with
  | here _ =>
    obtain ⟨c, hc⟩ := hI.src
    exact entry _ _ _ hc hu
  | @step b c l hb hc hadj ih =>
    have hwn := hw b (chain_nodes hb).2 c hc hadj
    by_cases hbd : b ∈ st.dist.map Prod.fst
    · obtain ⟨p, hp, rfl⟩ := List.mem_map.1 hbd
      rcases hI.closed p hp c hc hadj with h | ⟨y, k, hy, hle⟩
      · exact absurd h hu
      · exact (entry _ _ _ hy hu).trans (hle.trans (add_le_add ((hI.fin p hp).2 _ hb) le_rfl))
    · exact (ih hbd).trans (le_add_of_nonneg_right hwn)

theorem loop_spec (hn : nodes.Nodup) (hw : ∀ a ∈ nodes, ∀ b ∈ nodes, adj a b = true → 0 ≤ w a b) {s : α} : ∀ (n : Nat) (st : State α K), Inv nodes adj w s st → st.dist.length + n = nodes.length →
    ∃ r, loop nodes adj w n st = .ok r ∧ (∀ p ∈ r, IsDistance nodes adj w s p.1 p.2) ∧ (r.map Prod.fst).Nodup ∧ ∀ u x, Chain nodes adj w s u x → u ∈ r.map Prod.fst := by
  intro n
  induction n with
  | zero =>
    intro st hI hl
    refine ⟨st.dist, rfl, hI.fin, hI.nodup, fun u x hu => ?_⟩
    have hsub : st.dist.map Prod.fst ⊆ nodes := by
      intro v hv
      obtain ⟨p, hp, rfl⟩ := List.mem_map.1 hv
      exact (chain_nodes (hI.fin p hp).1).2
    have hperm := (hI.nodup.subperm hsub).perm_of_length_le (by rw [List.length_map]; omega)
    exact hperm.mem_iff.2 (chain_nodes hu).2
  | succ n ih =>
    intro st hI hl
    rw [loop]
    cases hm : minEntry (st.fringe.filter fun e => (st.dist.lookup e.2.2).isNone) with
    | none =>
      refine ⟨st.dist, rfl, hI.fin, hI.nodup, fun u x hu => ?_⟩
      have hempty := minEntry_none hm
      have stale : ∀ y c v, (y, c, v) ∈ st.fringe → v ∈ st.dist.map Prod.fst := by
        intro y c v he
        by_contra hc
        have : (y, c, v) ∈ st.fringe.filter fun e => (st.dist.lookup e.2.2).isNone := List.mem_filter.2 ⟨he, by rw [lookup_none.2 hc]; rfl⟩
        rw [hempty] at this
        cases this
      induction hu with
      | here _ =>
        obtain ⟨c, hc⟩ := hI.src
        exact stale _ _ _ hc
      | @step b c l hb hc hadj ihc =>
        obtain ⟨p, hp, rfl⟩ := List.mem_map.1 ihc
        rcases hI.closed p hp c hc hadj with h | ⟨y, k, hy, _⟩
        · exact h
        · exact stale _ _ _ hy
    | some m =>
      obtain ⟨d, c, v⟩ := m
      dsimp only
      obtain ⟨m1, m2⟩ := minEntry_spec hm
      obtain ⟨m1, m3⟩ := List.mem_filter.1 m1
      have hvf : v ∉ st.dist.map Prod.fst := by
        rw [← lookup_none]
        cases hq : st.dist.lookup v with
        | none => rfl
        | some y => dsimp only at m3; rw [hq] at m3; cases m3
      have hvc : Chain nodes adj w s v d := hI.fringe _ m1
      have hvd : IsDistance nodes adj w s v d := ⟨hvc, fun l h => min_below hI hw hm h hvf⟩
      have hfin : ∀ p ∈ st.dist ++ [(v, d)], IsDistance nodes adj w s p.1 p.2 := by
        intro p hp
        rcases List.mem_append.1 hp with hp | hp
        · exact hI.fin p hp
        · rw [List.mem_singleton] at hp; subst hp; exact hvd
      obtain ⟨st', r1, r2, r3, r4, r5, r6⟩ := relax_spec hvc (neigh nodes adj v) ⟨st.dist ++ [(v, d)], st.seen, st.fringe, st.count⟩
        (fun u hu => List.mem_filter.1 hu) hfin hI.fringe hI.seen
      rw [r1]
      dsimp only at r2 r3 r6 ⊢
      have hmapd : st'.dist.map Prod.fst = st.dist.map Prod.fst ++ [v] := by rw [r2]; simp
      refine ih st' ⟨by rw [r2]; exact hfin, ?_, r4, r5, ?_, ?_⟩ ?_
      · rw [hmapd, List.nodup_append]
        refine ⟨hI.nodup, by simp, fun a ha b hb => ?_⟩
        rw [List.mem_singleton] at hb
        subst hb
        rintro rfl
        exact hvf ha
      · obtain ⟨c, hc⟩ := hI.src
        exact ⟨c, r3 _ hc⟩
      · intro p hp u hu hadj
        rw [r2] at hp
        rw [hmapd]
        rcases List.mem_append.1 hp with hp | hp
        · rcases hI.closed p hp u hu hadj with h | ⟨x, k, h1, h2⟩
          · exact .inl (List.mem_append_left _ h)
          · exact .inr ⟨x, k, r3 _ h1, h2⟩
        · rw [List.mem_singleton] at hp
          subst hp
          have := r6 u (List.mem_filter.2 ⟨hu, hadj⟩)
          simpa using this
      · rw [r2]; simp; omega

/-- **C119**: from a node, the algorithm finishes with exactly the nodes that can be reached, once each, with the length of the shortest chain to each of them. -/
theorem dijkstra_spec (hn : nodes.Nodup) (hw : ∀ a ∈ nodes, ∀ b ∈ nodes, adj a b = true → 0 ≤ w a b) {s : α} (hs : s ∈ nodes) :
    ∃ r, dijkstra nodes adj w s = .ok r ∧ (r.map Prod.fst).Nodup ∧ (∀ u, u ∈ r.map Prod.fst ↔ ∃ x, Chain nodes adj w s u x) ∧ ∀ u d, (u, d) ∈ r ↔ IsDistance nodes adj w s u d := by
  obtain ⟨r, h1, h2, h3, h4⟩ := loop_spec hn hw nodes.length (s := s) ⟨[], [(s, 0)], [(0, 0, s)], 1⟩
    ⟨(by intro p hp; cases hp), (by simp), (by
      intro e he
      rw [List.mem_singleton] at he
      subst he
      exact .here hs), (by
      intro u x hx
      have := lookup_mem hx
      rw [List.mem_singleton] at this
      cases this
      exact ⟨0, by simp⟩), ⟨0, by simp⟩, (by intro p hp; cases hp)⟩ (by simp)
  refine ⟨r, h1, h3, fun u => ⟨fun hu => ?_, fun ⟨x, hx⟩ => h4 u x hx⟩, fun u d => ⟨fun h => h2 _ h, fun h => ?_⟩⟩
  · obtain ⟨p, hp, rfl⟩ := List.mem_map.1 hu
    exact ⟨_, (h2 p hp).1⟩
  · obtain ⟨p, hp, rfl⟩ := List.mem_map.1 (h4 u d h.1)
    have : p.2 = d := le_antisymm ((h2 p hp).2 _ h.1) (h.2 _ (h2 p hp).1)
    rw [← this]
    exact hp

/-! ### The order of the positions -/

theorem posLe_total (a b : K × K × K) : posLe a b ∨ posLe b a := by
  unfold posLe
  rcases lt_trichotomy a.1 b.1 with h | h | h
  · exact .inl (.inl h)
  · rcases lt_trichotomy a.2.1 b.2.1 with h' | h' | h'
    · exact .inl (.inr ⟨h, .inl h'⟩)
    · rcases le_total a.2.2 b.2.2 with h2 | h2
      · exact .inl (.inr ⟨h, .inr ⟨h', h2⟩⟩)
      · exact .inr (.inr ⟨h.symm, .inr ⟨h'.symm, h2⟩⟩)
    · exact .inr (.inr ⟨h.symm, .inl h'⟩)
  · exact .inr (.inl h)

theorem posLe_trans {a b c : K × K × K} (h : posLe a b) (h' : posLe b c) : posLe a c := by
  unfold posLe at *
  rcases h with h | ⟨h1, h2⟩
  · rcases h' with h' | ⟨h1', _⟩
    · exact .inl (h.trans h')
    · exact .inl (h1' ▸ h)
  · rcases h' with h' | ⟨h1', h2'⟩
    · exact .inl (h1 ▸ h')
    · refine .inr ⟨h1.trans h1', ?_⟩
      rcases h2 with h2 | ⟨e2, h3⟩
      · rcases h2' with h2' | ⟨e2', _⟩
        · exact .inl (h2.trans h2')
        · exact .inl (e2' ▸ h2)
      · rcases h2' with h2' | ⟨e2', h3'⟩
        · exact .inl (e2 ▸ h2')
        · exact .inr ⟨e2.trans e2', h3.trans h3'⟩

theorem posLe_antisymm {a b : K × K × K} (h : posLe a b) (h' : posLe b a) : a = b := by
  unfold posLe at *
  obtain ⟨a1, a2, a3⟩ := a
  obtain ⟨b1, b2, b3⟩ := b
  dsimp only at *
  rcases h with h | ⟨h1, h2⟩
  · rcases h' with h' | ⟨h1', _⟩
    · exact absurd h (lt_asymm h')
    · exact absurd h1' h.ne'
  · rcases h' with h' | ⟨_, h2'⟩
    · exact absurd h1 h'.ne'
    · rcases h2 with h2 | ⟨e2, h3⟩
      · rcases h2' with h2' | ⟨e2', _⟩
        · exact absurd h2 (lt_asymm h2')
        · exact absurd e2' h2.ne'
      · rcases h2' with h2' | ⟨_, h3'⟩
        · exact absurd e2 h2'.ne'
        · rw [h1, e2, le_antisymm h3 h3']

variable {pos : α → K × K × K}

theorem sortByPos_perm {β : Type} (items : List (α × β)) : (sortByPos pos items).Perm items := List.perm_insertionSort _ _

theorem sortByPos_sorted {β : Type} (items : List (α × β)) : (sortByPos pos items).Pairwise fun a b => posLe (pos a.1) (pos b.1) := by
  unfold sortByPos
  haveI : Std.Total (fun a b : α × β => posLe (pos a.1) (pos b.1)) := ⟨fun a b => posLe_total _ _⟩
  haveI : IsTrans (α × β) (fun a b : α × β => posLe (pos a.1) (pos b.1)) := ⟨fun a b c h h' => posLe_trans h h'⟩
  exact List.pairwise_insertionSort _ _

theorem sorted_unique {β : Type} {l l' : List (α × β)} (hl : l.Pairwise fun a b => posLe (pos a.1) (pos b.1)) (hl' : l'.Pairwise fun a b => posLe (pos a.1) (pos b.1))
    (hp : l.Perm l') (hn : (l.map Prod.fst).Nodup) (hinj : ∀ a ∈ l.map Prod.fst, ∀ b ∈ l.map Prod.fst, pos a = pos b → a = b) : l = l' := by
  refine List.Perm.eq_of_pairwise ?_ hl hl' hp
  intro a b ha hb h h'
  have hb' := hp.mem_iff.2 hb
  have := hinj _ (List.mem_map.2 ⟨a, ha, rfl⟩) _ (List.mem_map.2 ⟨b, hb', rfl⟩) (posLe_antisymm h h')
  have e1 := lookup_of_mem hn (u := a.1) (x := a.2) ha
  have e2 := lookup_of_mem hn (u := b.1) (x := b.2) hb'
  rw [this, e2] at e1
  injection e1 with e1
  exact Prod.ext this e1.symm

/-! ### The table -/

theorem allPairs_spec {nodes' : List α} (h : ∀ v ∈ nodes', ∃ r, dijkstra nodes adj w v = .ok r) :
    ∃ t, nodes'.mapM (fun v => (dijkstra nodes adj w v).map fun r => (v, r)) = .ok t ∧ t.map Prod.fst = nodes' ∧ ∀ p ∈ t, dijkstra nodes adj w p.1 = .ok p.2 := by
  induction nodes' with
  | nil => exact ⟨[], rfl, rfl, by simp⟩
  | cons v vs ih =>
    obtain ⟨r, hr⟩ := h v List.mem_cons_self
    obtain ⟨t, h1, h2, h3⟩ := ih fun u hu => h u (List.mem_cons_of_mem _ hu)
    refine ⟨(v, r) :: t, ?_, by simp [h2], ?_⟩
    · rw [List.mapM_cons, hr, h1]; rfl
    · intro p hp
      rcases List.mem_cons.1 hp with rfl | hp
      · exact hr
      · exact h3 p hp

/-- **C119**: the table of distances has one row for each node, with the nodes in the order of their positions, and each row gives, in the same order, the nodes that can be reached from that one with the length of the shortest chain to each of them. -/
theorem paths_spec (pos : α → K × K × K) (hn : nodes.Nodup) (hw : ∀ a ∈ nodes, ∀ b ∈ nodes, adj a b = true → 0 ≤ w a b) :
    ∃ t, shortestPaths pos nodes adj w = .ok t ∧ (t.map Prod.fst).Perm nodes ∧ t.Pairwise (fun a b => posLe (pos a.1) (pos b.1)) ∧
      ∀ p ∈ t, (p.2.map Prod.fst).Nodup ∧ p.2.Pairwise (fun a b => posLe (pos a.1) (pos b.1)) ∧ ∀ u d, (u, d) ∈ p.2 ↔ IsDistance nodes adj w p.1 u d := by
  obtain ⟨t, h1, h2, h3⟩ := allPairs_spec (nodes := nodes) (adj := adj) (w := w) (nodes' := nodes) fun v hv => by
    obtain ⟨r, hr, _⟩ := dijkstra_spec hn hw hv
    exact ⟨r, hr⟩
  have e : allPairs nodes adj w = .ok t := h1
  refine ⟨_, by unfold shortestPaths; rw [e], ?_, ?_, ?_⟩
  · rw [List.map_map]
    have : (Prod.fst ∘ fun p : α × List (α × K) => (p.1, sortByPos pos p.2)) = Prod.fst := rfl
    rw [this, ← h2]
    exact (sortByPos_perm t).map _
  · rw [List.pairwise_map]
    exact sortByPos_sorted t
  · intro p hp
    obtain ⟨q, hq, rfl⟩ := List.mem_map.1 hp
    have hq' := (sortByPos_perm t).mem_iff.1 hq
    have hv : q.1 ∈ nodes := h2 ▸ List.mem_map.2 ⟨q, hq', rfl⟩
    obtain ⟨r, hr, g1, _, g2⟩ := dijkstra_spec hn hw hv
    rw [h3 q hq'] at hr
    injection hr with hr
    subst hr
    dsimp only
    refine ⟨?_, sortByPos_sorted _, ?_⟩
    · exact ((sortByPos_perm q.2).map Prod.fst).nodup_iff.2 g1
    · intro u d
      rw [(sortByPos_perm q.2).mem_iff]
      exact g2 u d

theorem chain_mem {a b : α} {l : K} (h : Chain nodes adj w a b l) : a ∈ nodes ∧ b ∈ nodes := by
  induction h with
  | here h => exact ⟨h, h⟩
  | step _ h2 _ ih => exact ⟨ih.1, h2⟩

theorem chain_perm {nodes' : List α} (hp : nodes.Perm nodes') {a b : α} {l : K} (h : Chain nodes adj w a b l) : Chain nodes' adj w a b l := by
  induction h with
  | here h => exact .here (hp.mem_iff.1 h)
  | step _ h2 h3 ih => exact .step ih (hp.mem_iff.1 h2) h3

theorem dist_perm {nodes' : List α} (hp : nodes.Perm nodes') {a b : α} {d : K} : IsDistance nodes adj w a b d ↔ IsDistance nodes' adj w a b d :=
  ⟨fun h => ⟨chain_perm hp h.1, fun l hl => h.2 l (chain_perm hp.symm hl)⟩, fun h => ⟨chain_perm hp.symm h.1, fun l hl => h.2 l (chain_perm hp hl)⟩⟩

theorem chain_trans {a b c : α} {l m : K} (h : Chain nodes adj w a b l) (h' : Chain nodes adj w b c m) : Chain nodes adj w a c (l + m) := by
  induction h' with
  | here _ => rw [add_zero]; exact h
  | step _ h2 h3 ih => rw [← add_assoc]; exact .step ih h2 h3

theorem chain_one {a b : α} (ha : a ∈ nodes) (hb : b ∈ nodes) (h : adj a b = true) : Chain nodes adj w a b (w a b) := by
  have := Chain.step (l := 0) (w := w) (Chain.here ha) hb h
  rwa [zero_add] at this

theorem chain_symm (ha : ∀ a b, adj a b = adj b a) (hs : ∀ a b, w a b = w b a) {a b : α} {l : K} (h : Chain nodes adj w a b l) : Chain nodes adj w b a l := by
  induction h with
  | here h => exact .here h
  | @step b c l h1 h2 h3 ih =>
    have := chain_trans (chain_one (w := w) h2 (chain_mem h1).2 (by rw [ha]; exact h3)) ih
    rwa [hs, add_comm] at this

theorem dist_unique {a b : α} {d d' : K} (h : IsDistance nodes adj w a b d) (h' : IsDistance nodes adj w a b d') : d = d' := le_antisymm (h.2 _ h'.1) (h'.2 _ h.1)

theorem dist_symm (ha : ∀ a b, adj a b = adj b a) (hs : ∀ a b, w a b = w b a) {a b : α} {d : K} (h : IsDistance nodes adj w a b d) : IsDistance nodes adj w b a d :=
  ⟨chain_symm ha hs h.1, fun l hl => h.2 l (chain_symm ha hs hl)⟩

theorem chain_nonneg (hw : ∀ a ∈ nodes, ∀ b ∈ nodes, adj a b = true → 0 ≤ w a b) {a b : α} {l : K} (h : Chain nodes adj w a b l) : 0 ≤ l := by
  induction h with
  | here _ => exact le_rfl
  | step h1 h2 h3 ih => exact add_nonneg ih (hw _ (chain_mem h1).2 _ h2 h3)

theorem chain_pos (hw : ∀ a ∈ nodes, ∀ b ∈ nodes, adj a b = true → 0 < w a b) {a b : α} {l : K} (h : Chain nodes adj w a b l) : a = b ∨ 0 < l := by
  cases h with
  | here _ => exact .inl rfl
  | step h1 h2 h3 =>
    exact .inr ((hw _ (chain_mem h1).2 _ h2 h3).trans_le (le_add_of_nonneg_left (chain_nonneg (fun a ha b hb h => (hw a ha b hb h).le) h1)))

/-- **C119**: the order in which the voxels come does not matter: with voxels at different positions the table is the same, row by row. -/
theorem paths_reproducible (pos : α → K × K × K) {nodes' : List α} (hp : nodes.Perm nodes') (hn : nodes.Nodup) (hw : ∀ a ∈ nodes, ∀ b ∈ nodes, adj a b = true → 0 ≤ w a b)
    (hinj : ∀ a ∈ nodes, ∀ b ∈ nodes, pos a = pos b → a = b) :
    shortestPaths pos nodes adj w = shortestPaths pos nodes' adj w ∧ findExtrema pos nodes adj w = findExtrema pos nodes' adj w ∧ length pos nodes adj w = length pos nodes' adj w := by
  have key : shortestPaths pos nodes adj w = shortestPaths pos nodes' adj w := by
    obtain ⟨t, e, h1, h2, h3⟩ := paths_spec (w := w) (adj := adj) pos hn hw
    obtain ⟨t', e', h1', h2', h3'⟩ := paths_spec (w := w) (adj := adj) pos (hp.nodup_iff.1 hn) fun a ha b hb => hw a (hp.mem_iff.2 ha) b (hp.mem_iff.2 hb)
    rw [e, e']
    congr 1
    have hN : (t.map Prod.fst).Nodup := h1.nodup_iff.2 hn
    have hN' : (t'.map Prod.fst).Nodup := h1'.nodup_iff.2 (hp.nodup_iff.1 hn)
    have rows : ∀ p ∈ t, ∀ q ∈ t', p.1 = q.1 → p = q := by
      intro p hp1 q hq1 hpq
      refine Prod.ext hpq ?_
      obtain ⟨g1, g2, g3⟩ := h3 p hp1
      obtain ⟨g1', g2', g3'⟩ := h3' q hq1
      have sub : ∀ a ∈ p.2.map Prod.fst, a ∈ nodes := by
        intro a ha
        obtain ⟨x, hx, rfl⟩ := List.mem_map.1 ha
        exact (chain_mem ((g3 x.1 x.2).1 hx).1).2
      refine sorted_unique g2 g2' ?_ g1 fun a ha b hb => hinj a (sub a ha) b (sub b hb)
      refine (List.perm_ext_iff_of_nodup g1.of_map g1'.of_map).2 fun x => ?_
      rw [show x = (x.1, x.2) from rfl, g3, g3', hpq]
      exact dist_perm hp
    refine sorted_unique h2 h2' ?_ hN fun a ha b hb => hinj a (h1.mem_iff.1 ha) b (h1.mem_iff.1 hb)
    refine (List.perm_ext_iff_of_nodup hN.of_map hN'.of_map).2 fun x => ⟨fun hx => ?_, fun hx => ?_⟩
    · have : x.1 ∈ t'.map Prod.fst := h1'.mem_iff.2 (hp.mem_iff.1 (h1.mem_iff.1 (List.mem_map.2 ⟨x, hx, rfl⟩)))
      obtain ⟨y, hy, hxy⟩ := List.mem_map.1 this
      rw [rows x hx y hy hxy.symm]
      exact hy
    · have : x.1 ∈ t.map Prod.fst := h1.mem_iff.2 (hp.mem_iff.2 (h1'.mem_iff.1 (List.mem_map.2 ⟨x, hx, rfl⟩)))
      obtain ⟨y, hy, hxy⟩ := List.mem_map.1 this
      rw [← rows y hy x hx hxy]
      exact hy
  exact ⟨key, by unfold findExtrema; rw [key], by unfold length; rw [key]⟩

/-! ### The extremes and the length -/

theorem extremaLoop_ok : ∀ (ps : List ((α × List (α × K)) × (α × List (α × K)))) (best : Option (α × α)) (m : K), (∀ p ∈ ps, ∃ d, p.1.2.lookup p.2.1 = some d) →
    ∃ r d, extremaLoop ps best m = .ok (r, d) ∧ m ≤ d ∧ (∀ p ∈ ps, ∀ x, p.1.2.lookup p.2.1 = some x → x ≤ d) ∧
      ((r = best ∧ d = m) ∨ ∃ p ∈ ps, r = some (p.1.1, p.2.1) ∧ p.1.2.lookup p.2.1 = some d ∧ m < d) := by
  intro ps
  induction ps with
  | nil => intro best m _; exact ⟨best, m, rfl, le_rfl, by simp, .inl ⟨rfl, rfl⟩⟩
  | cons p ps ih =>
    intro best m h
    obtain ⟨x, hx⟩ := h p List.mem_cons_self
    obtain ⟨⟨v1, row⟩, ⟨v2, row2⟩⟩ := p
    have ih' := fun b m => ih b m fun q hq => h q (List.mem_cons_of_mem _ hq)
    rw [extremaLoop]
    dsimp only at hx
    simp only [hx]
    by_cases hm : m < x
    · rw [if_pos hm]
      obtain ⟨r, d, e, h1, h2, h3⟩ := ih' (some (v1, v2)) x
      refine ⟨r, d, e, hm.le.trans h1, ?_, ?_⟩
      · intro q hq y hy
        rcases List.mem_cons.1 hq with rfl | hq
        · rw [hx] at hy; injection hy with hy; exact hy ▸ h1
        · exact h2 q hq y hy
      · rcases h3 with ⟨rfl, rfl⟩ | ⟨q, hq, h4, h5, h6⟩
        · exact .inr ⟨_, List.mem_cons_self, rfl, hx, hm⟩
        · exact .inr ⟨q, List.mem_cons_of_mem _ hq, h4, h5, hm.trans h6⟩
    · rw [if_neg hm]
      obtain ⟨r, d, e, h1, h2, h3⟩ := ih' best m
      refine ⟨r, d, e, h1, ?_, ?_⟩
      · intro q hq y hy
        rcases List.mem_cons.1 hq with rfl | hq
        · rw [hx] at hy; injection hy with hy; exact hy ▸ (not_lt.1 hm).trans h1
        · exact h2 q hq y hy
      · rcases h3 with h3 | ⟨q, hq, h4⟩
        · exact .inl h3
        · exact .inr ⟨q, List.mem_cons_of_mem _ hq, h4⟩

theorem extremaLoop_fail : ∀ (ps : List ((α × List (α × K)) × (α × List (α × K)))) (best : Option (α × α)) (m : K), (∃ p ∈ ps, p.1.2.lookup p.2.1 = none) →
    extremaLoop ps best m = .error .keyError := by
  intro ps
  induction ps with
  | nil => intro best m ⟨p, hp, _⟩; cases hp
  | cons p ps ih =>
    intro best m ⟨q, hq, hn⟩
    obtain ⟨⟨v1, row⟩, ⟨v2, row2⟩⟩ := p
    rw [extremaLoop]
    rcases List.mem_cons.1 hq with rfl | hq
    · dsimp only at hn
      simp only [hn]
    · cases hx : row.lookup v2 with
      | none => rfl
      | some x =>
        dsimp only
        split
        · exact ih _ _ ⟨q, hq, hn⟩
        · exact ih _ _ ⟨q, hq, hn⟩

theorem find_two {t : List (α × List (α × K))} (h : 2 ≤ t.length) : findExtremaAndLength t = extremaLoop (Tracks.combinations2 t) none 0 := by
  match t, h with
  | _ :: _ :: _, _ => rfl

/-- **C119**: the length of a track is that of the longest of the shortest chains between two of its voxels, and the extremes are two voxels at that distance along the track; a track of one voxel has it as both of its extremes and no length.  The
extremes are lost only if all the voxels are at no distance from each other. -/
theorem extremes_longest (pos : α → K × K × K) (hn : nodes.Nodup) (hne : nodes ≠ []) (ha : ∀ a b, adj a b = adj b a) (hs : ∀ a b, w a b = w b a)
    (hw : ∀ a ∈ nodes, ∀ b ∈ nodes, adj a b = true → 0 ≤ w a b) (hc : Connected nodes adj w) :
    ∃ r d, findExtrema pos nodes adj w = .ok r ∧ length pos nodes adj w = .ok d ∧ (∀ u v x, IsDistance nodes adj w u v x → x ≤ d) ∧
      ((∃ a b, r = some (a, b) ∧ IsDistance nodes adj w a b d ∧ (2 ≤ nodes.length → 0 < d)) ∨ (r = none ∧ d = 0 ∧ 2 ≤ nodes.length)) := by
  obtain ⟨t, e, h1, h2, h3⟩ := paths_spec (w := w) (adj := adj) pos hn hw
  have zero : ∀ u ∈ nodes, IsDistance nodes adj w u u 0 := fun u hu => ⟨.here hu, fun l hl => chain_nonneg hw hl⟩
  have hlen : t.length = nodes.length := by rw [← h1.length_eq, List.length_map]
  have look : ∀ p ∈ t, ∀ v x, p.2.lookup v = some x ↔ IsDistance nodes adj w p.1 v x := by
    intro p hp v x
    obtain ⟨g1, _, g3⟩ := h3 p hp
    exact ⟨fun h => (g3 v x).1 (lookup_mem h), fun h => lookup_of_mem g1 ((g3 v x).2 h)⟩
  have hN : (t.map Prod.fst).Nodup := h1.nodup_iff.2 hn
  have row : ∀ u ∈ nodes, ∃ p ∈ t, p.1 = u := fun u hu => by
    obtain ⟨p, hp, hpu⟩ := List.mem_map.1 (h1.mem_iff.2 hu)
    exact ⟨p, hp, hpu⟩
  have key : ∃ r d, findExtremaAndLength t = .ok (r, d) ∧ (∀ u v x, IsDistance nodes adj w u v x → x ≤ d) ∧
      ((∃ a b, r = some (a, b) ∧ IsDistance nodes adj w a b d ∧ (2 ≤ nodes.length → 0 < d)) ∨ (r = none ∧ d = 0 ∧ 2 ≤ nodes.length)) := by
    by_cases two : 2 ≤ t.length
    · have some_row : ∀ p ∈ Tracks.combinations2 t, ∃ d, p.1.2.lookup p.2.1 = some d := by
        intro p hp
        obtain ⟨m1, m2⟩ := Tracks.mem_combinations2 hp
        have n1 : p.1.1 ∈ nodes := h1.mem_iff.1 (List.mem_map.2 ⟨_, m1, rfl⟩)
        have n2 : p.2.1 ∈ nodes := h1.mem_iff.1 (List.mem_map.2 ⟨_, m2, rfl⟩)
        obtain ⟨l, hl⟩ := hc _ n1 _ n2
        obtain ⟨g1, _, g3⟩ := h3 p.1 m1
        obtain ⟨r, hr, _, g4, g5⟩ := dijkstra_spec hn hw n1
        obtain ⟨q, hq, hqe⟩ := List.mem_map.1 ((g4 p.2.1).2 ⟨l, hl⟩)
        refine ⟨q.2, (look _ m1 _ _).2 ?_⟩
        rw [← hqe]
        exact (g5 _ _).1 hq
      obtain ⟨r, d, e', k1, k2, k3⟩ := extremaLoop_ok (Tracks.combinations2 t) none 0 some_row
      refine ⟨r, d, by rw [find_two two, e'], ?_, ?_⟩
      · intro u v x hx
        obtain ⟨hu, hv⟩ := chain_mem hx.1
        by_cases huv : u = v
        · subst huv
          rw [dist_unique hx (zero u hu)]
          exact k1
        · obtain ⟨p, hp, hpu⟩ := row u hu
          obtain ⟨q, hq, hqv⟩ := row v hv
          subst hpu hqv
          rcases Tracks.combinations2_complete hp hq (fun h => huv (by rw [h])) with h | h
          · exact k2 _ h x ((look p hp _ _).2 hx)
          · exact k2 _ h x ((look q hq _ _).2 (dist_symm ha hs hx))
      · rcases k3 with ⟨rfl, rfl⟩ | ⟨p, hp, rfl, hx, hpos⟩
        · exact .inr ⟨rfl, rfl, hlen ▸ two⟩
        · exact .inl ⟨_, _, rfl, (look _ (Tracks.mem_combinations2 hp).1 _ _).1 hx, fun _ => hpos⟩
    · have : t.length = 1 := by
        have : 0 < nodes.length := List.length_pos_of_ne_nil hne
        omega
      obtain ⟨p, rfl⟩ := List.length_eq_one_iff.1 this
      obtain ⟨v, rw'⟩ := p
      have hnodes : nodes = [v] := (List.perm_singleton.1 h1.symm)
      refine ⟨some (v, v), 0, rfl, ?_, .inl ⟨v, v, rfl, zero v (by rw [hnodes]; exact List.mem_cons_self), fun h => by rw [hnodes] at h; simp at h⟩⟩
      intro u x d hd
      obtain ⟨hu, hx⟩ := chain_mem hd.1
      rw [hnodes, List.mem_singleton] at hu hx
      subst hu hx
      rw [dist_unique hd (zero _ (by rw [hnodes]; exact List.mem_cons_self))]
  obtain ⟨r, d, k1, k2, k3⟩ := key
  refine ⟨r, d, ?_, ?_, k2, k3⟩
  · unfold findExtrema; rw [e]; dsimp only; rw [k1]
  · unfold length; rw [e]; dsimp only; rw [k1]

/-- **C119**: with links of positive length between the voxels of a track of more than one, there are always two different extremes. -/
theorem extremes_exist (pos : α → K × K × K) (hn : nodes.Nodup) (two : 2 ≤ nodes.length) (ha : ∀ a b, adj a b = adj b a) (hs : ∀ a b, w a b = w b a)
    (hw : ∀ a ∈ nodes, ∀ b ∈ nodes, adj a b = true → 0 < w a b) (hc : Connected nodes adj w) :
    ∃ a b d, findExtrema pos nodes adj w = .ok (some (a, b)) ∧ length pos nodes adj w = .ok d ∧ a ∈ nodes ∧ b ∈ nodes ∧ a ≠ b ∧ 0 < d ∧ IsDistance nodes adj w a b d ∧
      ∀ u v x, IsDistance nodes adj w u v x → x ≤ d := by
  have hw' : ∀ a ∈ nodes, ∀ b ∈ nodes, adj a b = true → 0 ≤ w a b := fun a h b h' h2 => (hw a h b h' h2).le
  obtain ⟨r, d, e1, e2, h1, h2⟩ := extremes_longest (w := w) (adj := adj) pos hn (by rintro rfl; simp at two) ha hs hw' hc
  rcases h2 with ⟨a, b, rfl, h2, h3⟩ | ⟨rfl, rfl, _⟩
  · refine ⟨a, b, d, e1, e2, (chain_mem h2.1).1, (chain_mem h2.1).2, ?_, h3 two, h2, h1⟩
    rintro rfl
    exact absurd (h2.2 _ (.here (chain_mem h2.1).1)) (not_le.2 (h3 two))
  · exfalso
    match nodes, two, hn with
    | u :: v :: rest, _, hn =>
      obtain ⟨l, hl⟩ := hc u (by simp) v (by simp)
      obtain ⟨r, hr, _, g4, g5⟩ := dijkstra_spec hn hw' (s := u) (by simp)
      obtain ⟨q, hq, hqe⟩ := List.mem_map.1 ((g4 v).2 ⟨l, hl⟩)
      have hd := (g5 q.1 q.2).1 hq
      have := h1 _ _ _ hd
      rcases chain_pos hw hd.1 with h | h
      · rw [hqe] at h
        simp only [List.nodup_cons, List.mem_cons, not_or] at hn
        exact hn.1.1 h
      · exact absurd this (not_le.2 h)

/-- **C119**: if some voxel cannot be reached from another there is no length: it ends with `KeyError`; without voxels, with `NoVoxels`. -/
theorem extremes_fail (pos : α → K × K × K) (hn : nodes.Nodup) (ha : ∀ a b, adj a b = adj b a) (hs : ∀ a b, w a b = w b a)
    (hw : ∀ a ∈ nodes, ∀ b ∈ nodes, adj a b = true → 0 ≤ w a b) :
    (¬ Connected nodes adj w → findExtrema pos nodes adj w = .error .keyError ∧ length pos nodes adj w = .error .keyError) ∧
    (nodes = [] → findExtrema pos nodes adj w = .error (.other "NoVoxels") ∧ length pos nodes adj w = .error (.other "NoVoxels")) := by
  constructor
  · intro hc
    obtain ⟨t, e, h1, h2, h3⟩ := paths_spec (w := w) (adj := adj) pos hn hw
    unfold Connected at hc
    push Not at hc
    obtain ⟨u, hu, v, hv, hno⟩ := hc
    have huv : u ≠ v := by rintro rfl; exact hno 0 (.here hu)
    obtain ⟨p, hp, hpu⟩ := List.mem_map.1 (h1.mem_iff.2 hu)
    obtain ⟨q, hq, hqv⟩ := List.mem_map.1 (h1.mem_iff.2 hv)
    subst hpu hqv
    have hlen : 2 ≤ t.length := by
      match t, hp, hq with
      | [x], hp, hq =>
        rw [List.mem_singleton] at hp hq
        exact absurd (by rw [hp, hq]) huv
      | _ :: _ :: _, _, _ => simp
    have none_of : ∀ p ∈ t, ∀ v, (∀ l, ¬ Chain nodes adj w p.1 v l) → p.2.lookup v = none := by
      intro p hp v h
      cases hx : p.2.lookup v with
      | none => rfl
      | some x => exact absurd (((h3 p hp).2.2 v x).1 (lookup_mem hx)).1 (h x)
    have key : findExtremaAndLength t = .error .keyError := by
      rw [find_two hlen]
      apply extremaLoop_fail
      rcases Tracks.combinations2_complete hp hq (fun h => huv (by rw [h])) with h | h
      · exact ⟨_, h, none_of p hp _ hno⟩
      · exact ⟨_, h, none_of q hq _ fun l hl => hno l (chain_symm ha hs hl)⟩
    constructor
    · unfold findExtrema; rw [e]; dsimp only; rw [key]
    · unfold length; rw [e]; dsimp only; rw [key]
  · rintro rfl
    exact ⟨rfl, rfl⟩

/-- **C119**: the distances along the track are a distance: nothing from a voxel to itself, the same in both directions, never longer through a third voxel; and never longer than the length of the link between two linked voxels. -/
theorem distances_metric (ha : ∀ a b, adj a b = adj b a) (hs : ∀ a b, w a b = w b a) (hw : ∀ a ∈ nodes, ∀ b ∈ nodes, adj a b = true → 0 ≤ w a b) (pos : α → K × K × K)
    (hn : nodes.Nodup) {t : List (α × List (α × K))} (h : shortestPaths pos nodes adj w = .ok t) {a b c : α} {ra rb : List (α × K)} (hA : t.lookup a = some ra) (hB : t.lookup b = some rb) :
    ra.lookup a = some 0 ∧ (∀ d, ra.lookup b = some d ↔ rb.lookup a = some d) ∧ (∀ d, ra.lookup b = some d → 0 ≤ d) ∧
    (∀ x y, ra.lookup b = some x → rb.lookup c = some y → ∃ z, ra.lookup c = some z ∧ z ≤ x + y) ∧ (adj a b = true → ∃ d, ra.lookup b = some d ∧ d ≤ w a b) := by
  obtain ⟨t', e, h1, h2, h3⟩ := paths_spec (w := w) (adj := adj) pos hn hw
  rw [h] at e
  injection e with e
  subst e
  have look : ∀ p ∈ t, ∀ v x, p.2.lookup v = some x ↔ IsDistance nodes adj w p.1 v x := by
    intro p hp v x
    obtain ⟨g1, _, g3⟩ := h3 p hp
    exact ⟨fun h => (g3 v x).1 (lookup_mem h), fun h => lookup_of_mem g1 ((g3 v x).2 h)⟩
  have mA := lookup_mem hA
  have mB := lookup_mem hB
  have nA : a ∈ nodes := h1.mem_iff.1 (List.mem_map.2 ⟨_, mA, rfl⟩)
  have nB : b ∈ nodes := h1.mem_iff.1 (List.mem_map.2 ⟨_, mB, rfl⟩)
  have reach : ∀ {v : α} {l : K}, Chain nodes adj w a v l → ∃ z, ra.lookup v = some z ∧ z ≤ l := by
    intro v l hl
    obtain ⟨r, hr, _, g4, g5⟩ := dijkstra_spec hn hw nA
    obtain ⟨q, hq, hqe⟩ := List.mem_map.1 ((g4 v).2 ⟨l, hl⟩)
    subst hqe
    have hd := (g5 q.1 q.2).1 hq
    exact ⟨q.2, (look _ mA _ _).2 hd, hd.2 l hl⟩
  refine ⟨?_, ?_, ?_, ?_, ?_⟩
  · exact (look _ mA _ _).2 ⟨.here nA, fun l hl => chain_nonneg hw hl⟩
  · intro d
    rw [look _ mA, look _ mB]
    exact ⟨dist_symm ha hs, dist_symm ha hs⟩
  · intro d hd
    exact chain_nonneg hw ((look _ mA _ _).1 hd).1
  · intro x y hx hy
    exact reach (chain_trans ((look _ mA _ _).1 hx).1 ((look _ mB _ _).1 hy).1)
  · intro hab
    exact reach (chain_one nA nB hab)

theorem chain_direct (htri : ∀ a ∈ nodes, ∀ b ∈ nodes, ∀ c ∈ nodes, w a c ≤ w a b + w b c) (hself : ∀ a ∈ nodes, w a a = 0) {a b : α} {l : K} (h : Chain nodes adj w a b l) : w a b ≤ l := by
  induction h with
  | here h => exact (hself _ h).le
  | step h1 h2 h3 ih => exact (htri _ (chain_mem h1).1 _ (chain_mem h1).2 _ h2).trans (add_le_add_left ih _)

/-- **C119**: the path along the track is never a short cut: two voxels are along the track at least as far as in a straight line (exactly as far if they are linked), and the track is at least as long as any two of its voxels are far. -/
theorem length_at_least (pos : α → K × K × K) (hn : nodes.Nodup) (ha : ∀ a b, adj a b = adj b a) (hs : ∀ a b, w a b = w b a)
    (hw : ∀ a ∈ nodes, ∀ b ∈ nodes, adj a b = true → 0 ≤ w a b) (hc : Connected nodes adj w)
    (htri : ∀ a ∈ nodes, ∀ b ∈ nodes, ∀ c ∈ nodes, w a c ≤ w a b + w b c) (hself : ∀ a ∈ nodes, w a a = 0) :
    (∀ a b d, IsDistance nodes adj w a b d → w a b ≤ d ∧ (adj a b = true → d = w a b)) ∧
    ∀ d, length pos nodes adj w = .ok d → ∀ a ∈ nodes, ∀ b ∈ nodes, w a b ≤ d := by
  have one : ∀ a b d, IsDistance nodes adj w a b d → w a b ≤ d ∧ (adj a b = true → d = w a b) := by
    intro a b d h
    have h1 := chain_direct htri hself h.1
    exact ⟨h1, fun hab => le_antisymm (h.2 _ (chain_one (chain_mem h.1).1 (chain_mem h.1).2 hab)) h1⟩
  refine ⟨one, fun d hd a hA b hB => ?_⟩
  obtain ⟨r, d', _, e2, h1, _⟩ := extremes_longest (w := w) (adj := adj) pos hn (List.ne_nil_of_mem hA) ha hs hw hc
  rw [hd] at e2
  injection e2 with e2
  subst e2
  obtain ⟨l, hl⟩ := hc a hA b hB
  obtain ⟨q, hq, _, g4, g5⟩ := dijkstra_spec hn hw hA
  obtain ⟨p, hp, hpe⟩ := List.mem_map.1 ((g4 b).2 ⟨l, hl⟩)
  subst hpe
  have := (g5 p.1 p.2).1 hp
  exact (one _ _ _ this).1.trans (h1 _ _ _ this)

/-- **C119**: the voxels within a radius are those strictly closer along the track. -/
theorem within_spec (row : List (α × K)) (radius : K) (v : α) : v ∈ voxelsWithin row radius ↔ ∃ d, (v, d) ∈ row ∧ d < radius := by
  unfold voxelsWithin
  constructor
  · intro h
    obtain ⟨p, hp, rfl⟩ := List.mem_map.1 h
    obtain ⟨h1, h2⟩ := List.mem_filter.1 hp
    exact ⟨p.2, h1, by simpa using h2⟩
  · rintro ⟨d, h1, h2⟩
    exact List.mem_map.2 ⟨(v, d), List.mem_filter.2 ⟨h1, by simpa using h2⟩, rfl⟩

end dijkstra
/-! ### The tracks of an event -/

open Verif.Tracks (Node Point BlobInfo Contiguity IsTable IsBlob Adj trackGraph makeTrackGraphs)
open Verif.Voxels (PHit)

theorem extremaLoop_eq : ∀ (ps : List ((Node × List (Node × ℚ)) × (Node × List (Node × ℚ)))) (best : Option (Node × Node)) (m : ℚ), extremaLoop ps best m = Tracks.extremaLoop ps best m := by
  intro ps
  induction ps with
  | nil => intro best m; rfl
  | cons p ps ih =>
    intro best m
    obtain ⟨⟨v1, row⟩, ⟨v2, row2⟩⟩ := p
    rw [extremaLoop, Tracks.extremaLoop]
    cases row.lookup v2 with
    | none => rfl
    | some d => dsimp only; rw [ih, ih]

/-- The extremes used for the blobs of a track are those found here. -/
theorem extremes_eq (t : Tracks.Table Node) : findExtremaAndLength t = Tracks.findExtremaAndLength t := by
  unfold findExtremaAndLength Tracks.findExtremaAndLength
  match t with
  | [] => rfl
  | [(v, _)] => rfl
  | _ :: _ :: _ => exact extremaLoop_eq _ _ _

theorem combinations2_ne {α : Type} {l : List α} (hn : l.Nodup) {a b : α} (h : (a, b) ∈ Tracks.combinations2 l) : a ≠ b := by
  induction l with
  | nil => cases h
  | cons x xs ih =>
    rw [List.nodup_cons] at hn
    rw [Tracks.combinations2] at h
    rcases List.mem_append.1 h with h | h
    · obtain ⟨y, hy, he⟩ := List.mem_map.1 h
      cases he
      rintro rfl
      exact hn.1 hy
    · exact ih hn.2 h

theorem graph_ne {voxels : List Node} (hn : voxels.Nodup) {c : Contiguity} {a b : Node} (h : (trackGraph voxels c).adj a b = true) : a ≠ b := by
  simp only [Tracks.Graph.adj, decide_eq_true_eq, trackGraph, List.mem_filter] at h
  rcases h with h | h
  · exact combinations2_ne hn h.1
  · exact (combinations2_ne hn h.1).symm

theorem graph_symm (voxels : List Node) (c : Contiguity) (a b : Node) : (trackGraph voxels c).adj a b = (trackGraph voxels c).adj b a := by
  cases h : (trackGraph voxels c).adj a b with
  | true => exact (Tracks.adj_symm h).symm
  | false =>
    cases h' : (trackGraph voxels c).adj b a with
    | false => rfl
    | true => rw [Tracks.adj_symm h'] at h; cases h

/-- **C119**: the voxels of a track are connected among themselves. -/
theorem track_connected {voxels : List Node} (hn : voxels.Nodup) {c : Contiguity} {w : Node → Node → ℚ} (hs : ∀ a b, w a b = w b a) {t : List Node} (ht : t ∈ makeTrackGraphs voxels c) :
    Connected t (trackGraph voxels c).adj w := by
  obtain ⟨_, _, _, i4⟩ := Tracks.components_spec (trackGraph voxels c) hn voxels [] (fun v hv => hv) (by simp)
  obtain ⟨v, hv, hiff⟩ := i4 t ht
  have from_v : ∀ u, Relation.ReflTransGen (Adj (trackGraph voxels c)) v u → ∃ l, Chain t (trackGraph voxels c).adj w v u l := by
    intro u h
    induction h with
    | refl => exact ⟨0, .here hv⟩
    | tail h1 h2 ih =>
      obtain ⟨l, hl⟩ := ih
      exact ⟨_, .step hl ((hiff _).2 (h1.tail h2)) h2.2.2⟩
  intro a hA b hB
  obtain ⟨l, hl⟩ := from_v a ((hiff a).1 hA)
  obtain ⟨m, hm⟩ := from_v b ((hiff b).1 hB)
  exact ⟨_, chain_trans (chain_symm (graph_symm voxels c) hs hl) hm⟩

/-- The table of connected nodes: complete, symmetric, null from a node to itself and positive otherwise. -/
theorem connected_table {t : List Node} {adj : Node → Node → Bool} {w : Node → Node → ℚ} (hT : t.Nodup) (ha : ∀ a b, adj a b = adj b a) (hs : ∀ a b, w a b = w b a)
    (hw' : ∀ a ∈ t, ∀ b ∈ t, adj a b = true → 0 < w a b) (hc : Connected t adj w) :
    ∃ table dist, shortestPaths nodePos t adj w = .ok table ∧ table.Pairwise (fun p q => Before p.1 q.1) ∧ IsTable table t dist ∧ (∀ a ∈ t, ∀ b ∈ t, IsDistance t adj w a b (dist a b)) ∧
      (∀ a ∈ t, ∀ b ∈ t, dist a b = dist b a) ∧ (∀ a ∈ t, dist a a = 0) ∧ ∀ a ∈ t, ∀ b ∈ t, a ≠ b → 0 < dist a b := by
  have hw0 : ∀ a ∈ t, ∀ b ∈ t, adj a b = true → 0 ≤ w a b := fun a hA b hB h => (hw' a hA b hB h).le
  obtain ⟨table, e, h1, h2, h3⟩ := paths_spec (w := w) (adj := adj) nodePos hT hw0
  have hex : ∀ a ∈ t, ∀ b ∈ t, ∃ d, IsDistance t adj w a b d := by
    intro a hA b hB
    obtain ⟨l, hl⟩ := hc a hA b hB
    obtain ⟨r, _, _, g4, g5⟩ := dijkstra_spec hT hw0 hA
    obtain ⟨p, hp, hpe⟩ := List.mem_map.1 ((g4 b).2 ⟨l, hl⟩)
    subst hpe
    exact ⟨p.2, (g5 p.1 p.2).1 hp⟩
  classical
  let dist : Node → Node → ℚ := fun a b => if h : ∃ d, IsDistance t adj w a b d then h.choose else 0
  have hd : ∀ a ∈ t, ∀ b ∈ t, IsDistance t adj w a b (dist a b) := by
    intro a hA b hB
    have := hex a hA b hB
    simp only [dist, dif_pos this]
    exact this.choose_spec
  refine ⟨table, dist, e, h2, ⟨h1, hT, ?_⟩, hd, ?_, ?_, ?_⟩
  · intro p hp b hb
    have hA : p.1 ∈ t := h1.mem_iff.1 (List.mem_map.2 ⟨p, hp, rfl⟩)
    obtain ⟨g1, _, g3⟩ := h3 p hp
    exact lookup_of_mem g1 ((g3 b _).2 (hd _ hA b hb))
  · intro a hA b hB
    exact dist_unique (hd a hA b hB) (dist_symm ha hs (hd b hB a hA))
  · intro a hA
    exact dist_unique (hd a hA a hA) ⟨.here hA, fun l hl => chain_nonneg hw0 hl⟩
  · intro a hA b hB hab
    rcases chain_pos hw' (hd a hA b hB).1 with h | h
    · exact absurd h hab
    · exact h

/-- **C119**: the table of a track has its voxels in order and is what the blobs need: complete, symmetric, null from a voxel to itself and positive otherwise. -/
theorem track_table {voxels : List Node} (hn : voxels.Nodup) {c : Contiguity} {w : Node → Node → ℚ} (hs : ∀ a b, w a b = w b a) (hw : ∀ a ∈ voxels, ∀ b ∈ voxels, a ≠ b → 0 < w a b)
    {t : List Node} (ht : t ∈ makeTrackGraphs voxels c) :
    ∃ table dist, shortestPaths nodePos t (trackGraph voxels c).adj w = .ok table ∧ table.Pairwise (fun p q => Before p.1 q.1) ∧ IsTable table t dist ∧ (∀ a ∈ t, ∀ b ∈ t, IsDistance t (trackGraph voxels c).adj w a b (dist a b)) ∧
      (∀ a ∈ t, ∀ b ∈ t, dist a b = dist b a) ∧ (∀ a ∈ t, dist a a = 0) ∧ ∀ a ∈ t, ∀ b ∈ t, a ≠ b → 0 < dist a b := by
  have hT := (Paolina.tracks_good hn c t ht).2
  have hsub : ∀ a ∈ t, a ∈ voxels := fun a hA => ((Tracks.tracks_partition voxels hn c).1.mem_iff).1 (List.mem_flatten.2 ⟨t, ht, hA⟩)
  have hw' : ∀ a ∈ t, ∀ b ∈ t, (trackGraph voxels c).adj a b = true → 0 < w a b := fun a hA b hB h => hw a (hsub a hA) b (hsub b hB) (graph_ne hn h)
  exact connected_table hT (graph_symm voxels c) hs hw' (track_connected hn (c := c) hs ht)

/-- `b` is the blob of the track around the voxel `n`: centred where the voxel is (at the mean position of its hits), with exactly the hits of the voxels at less than the radius and a diagonal along the track that are closer than the radius, and with
their energy. -/
structure IsTrackBlob (t : List Node) (adj : Node → Node → Bool) (w : Node → Node → ℚ) (radius : ℚ) (diag : Node → ℚ) (n : Node) (b : Blob) : Prop where
  seed : b.seed = Tracks.blobCentre n
  size : b.radius = radius
  hits : ∀ h, h ∈ b.hits ↔ ∃ v ∈ t, ∃ d, IsDistance t adj w n v d ∧ d < radius + diag n ∧ h ∈ v.vox.hits ∧ 0 < radius ∧
    (h.x - b.seed.x) ^ 2 + (h.y - b.seed.y) ^ 2 + (h.z - b.seed.z) ^ 2 < radius ^ 2
  energy : b.e = (b.hits.map fun h => h.e).sum

theorem trackBlob_of {t : List Node} {adj : Node → Node → Bool} {w : Node → Node → ℚ} {radius : ℚ} {diag : Node → ℚ} {n : Node} (hnt : n ∈ t) {dist : Node → Node → ℚ}
    (hd : ∀ a ∈ t, ∀ b ∈ t, IsDistance t adj w a b (dist a b)) {b : BlobInfo} (h : IsBlob t dist radius diag n b) : IsTrackBlob t adj w radius diag n (mkBlob b radius) := by
  refine ⟨h.centre, rfl, fun q => ?_, rfl⟩
  show q ∈ b.hits ↔ _
  rw [h.hits, List.mem_flatMap]
  constructor
  · rintro ⟨v, hv, hq⟩
    obtain ⟨hq1, hq2⟩ := List.mem_filter.1 hq
    rw [decide_eq_true_eq] at hq2
    exact ⟨v, hv, dist n v, hd n hnt v hv, hq2.1, hq1, hq2.2⟩
  · rintro ⟨v, hv, d, h1, h2, h3, h4⟩
    refine ⟨v, hv, List.mem_filter.2 ⟨h3, ?_⟩⟩
    rw [decide_eq_true_eq, dist_unique (hd n hnt v hv) h1]
    exact ⟨h2, h4⟩

theorem mkTrack_spec {voxels : List Node} (hn : voxels.Nodup) {c : Contiguity} {w : Node → Node → ℚ} (hs : ∀ a b, w a b = w b a) (hw : ∀ a ∈ voxels, ∀ b ∈ voxels, a ≠ b → 0 < w a b)
    (diag : Node → ℚ) (radius : ℚ) {t : List Node} (ht : t ∈ makeTrackGraphs voxels c) :
    ∃ tr, mkTrack (trackGraph voxels c).adj w diag radius t = .ok tr ∧ tr.voxels = t ∧ tr.e = (t.map fun v => v.vox.e).sum ∧ tr.blobB.e ≤ tr.blobA.e ∧
      ∃ a b, (∃ d, IsDistance t (trackGraph voxels c).adj w a b d ∧ ∀ u v x, IsDistance t (trackGraph voxels c).adj w u v x → x ≤ d) ∧
        IsTrackBlob t (trackGraph voxels c).adj w radius diag a tr.blobA ∧ IsTrackBlob t (trackGraph voxels c).adj w radius diag b tr.blobB := by
  obtain ⟨table, dist, e, _, hT, hd, symm, self, pos⟩ := track_table hn hs hw ht
  obtain ⟨a, b, b1, b2, hA, hB, hmax, eb, hord, hblob, hen⟩ := Tracks.blobs_spec t table dist hT symm self pos (Paolina.tracks_good hn c t ht).1 radius diag
  have ord : (mkBlob b2 radius).e ≤ (mkBlob b1 radius).e := by
    by_cases h : b1.hits ≠ [] ∨ b2.hits ≠ []
    · obtain ⟨e1, e2⟩ := hen h
      rw [e1, e2] at hord
      exact hord
    · push Not at h
      unfold mkBlob
      rw [h.1, h.2]
  have far : ∀ u v x, IsDistance t (trackGraph voxels c).adj w u v x → x ≤ dist a b := by
    intro u v x hx
    obtain ⟨hu, hv⟩ := chain_mem hx.1
    rw [dist_unique hx (hd u hu v hv)]
    exact hmax u hu v hv
  refine ⟨⟨t, (t.map fun v => v.vox.e).sum, mkBlob b1 radius, mkBlob b2 radius⟩, (by unfold mkTrack; rw [e]; dsimp only; rw [eb]), rfl, rfl, ord, ?_⟩
  rcases hblob with ⟨g1, g2⟩ | ⟨g1, g2⟩
  · exact ⟨a, b, ⟨_, hd a hA b hB, far⟩, trackBlob_of hA hd g1, trackBlob_of hB hd g2⟩
  · exact ⟨b, a, ⟨_, hd b hB a hA, fun u v x hx => (far u v x hx).trans (symm a hA b hB).le⟩, trackBlob_of hB hd g1, trackBlob_of hA hd g2⟩

/-- **C119**: an event of different voxels always gives its collection of tracks: one for each group of connected voxels, with the energy of its voxels (so that no energy is lost), and with two blobs around two voxels that are the farthest apart along the
track, each with the hits around it and their energy, that of more energy first. -/
theorem make_tracks_spec {voxels : List Node} (hn : voxels.Nodup) (c : Contiguity) {w : Node → Node → ℚ} (hs : ∀ a b, w a b = w b a) (hw : ∀ a ∈ voxels, ∀ b ∈ voxels, a ≠ b → 0 < w a b)
    (diag : Node → ℚ) (radius : ℚ) :
    ∃ ts, makeTracks w diag voxels c radius = .ok ts ∧ ts.map Track.voxels = makeTrackGraphs voxels c ∧ (ts.map Track.e).sum = (voxels.map fun v => v.vox.e).sum ∧
      ∀ tr ∈ ts, tr.e = (tr.voxels.map fun v => v.vox.e).sum ∧ tr.blobB.e ≤ tr.blobA.e ∧
        ∃ a b, (∃ d, IsDistance tr.voxels (trackGraph voxels c).adj w a b d ∧ ∀ u v x, IsDistance tr.voxels (trackGraph voxels c).adj w u v x → x ≤ d) ∧
          IsTrackBlob tr.voxels (trackGraph voxels c).adj w radius diag a tr.blobA ∧ IsTrackBlob tr.voxels (trackGraph voxels c).adj w radius diag b tr.blobB := by
  have key : ∀ gs : List (List Node), (∀ t ∈ gs, t ∈ makeTrackGraphs voxels c) → ∃ ts, gs.mapM (mkTrack (trackGraph voxels c).adj w diag radius) = .ok ts ∧ ts.map Track.voxels = gs ∧
      (ts.map Track.e).sum = (gs.flatten.map fun v => v.vox.e).sum ∧ ∀ tr ∈ ts, tr.e = (tr.voxels.map fun v => v.vox.e).sum ∧ tr.blobB.e ≤ tr.blobA.e ∧
        ∃ a b, (∃ d, IsDistance tr.voxels (trackGraph voxels c).adj w a b d ∧ ∀ u v x, IsDistance tr.voxels (trackGraph voxels c).adj w u v x → x ≤ d) ∧
          IsTrackBlob tr.voxels (trackGraph voxels c).adj w radius diag a tr.blobA ∧ IsTrackBlob tr.voxels (trackGraph voxels c).adj w radius diag b tr.blobB := by
    intro gs
    induction gs with
    | nil => intro _; exact ⟨[], rfl, rfl, by simp, by simp⟩
    | cons t gs ih =>
      intro h
      obtain ⟨tr, e1, e2, e3, e4⟩ := mkTrack_spec hn hs hw diag radius (h t List.mem_cons_self)
      obtain ⟨ts, k1, k2, k3, k4⟩ := ih fun u hu => h u (List.mem_cons_of_mem _ hu)
      refine ⟨tr :: ts, ?_, by simp [e2, k2], ?_, ?_⟩
      · rw [List.mapM_cons, e1, k1]; rfl
      · rw [List.map_cons, List.sum_cons, k3, e3, List.flatten_cons, List.map_append, List.sum_append]
      · intro x hx
        rcases List.mem_cons.1 hx with rfl | hx
        · rw [e2]
          exact ⟨e3, e4⟩
        · exact k4 x hx
  obtain ⟨ts, k1, k2, k3, k4⟩ := key (makeTrackGraphs voxels c) fun t ht => ht
  refine ⟨ts, k1, k2, ?_, k4⟩
  rw [k3]
  exact ((Tracks.tracks_partition voxels hn c).1.map _).sum_eq

/-! ### The hypotheses are met -/

/-- Four voxels in a row with a detour: 0-1-2-3 and a direct link 0-2 that is longer than through 1. -/
def exAdj (a b : Nat) : Bool := decide ((a, b) ∈ [(0, 1), (1, 0), (1, 2), (2, 1), (2, 3), (3, 2), (0, 2), (2, 0)])
def exW (a b : Nat) : ℚ := if (a = 0 ∧ b = 2) ∨ (a = 2 ∧ b = 0) then 10 else if a = b then 0 else 3
def exPos (a : Nat) : ℚ × ℚ × ℚ := (0, 3 - a, 0)

theorem exW_symm (a b : Nat) : exW a b = exW b a := by
  unfold exW
  congr 1
  · exact propext ⟨fun h => h.symm.imp And.symm And.symm, fun h => h.symm.imp And.symm And.symm⟩
  · congr 1
    exact propext eq_comm

theorem exAdj_symm (a b : Nat) : exAdj a b = exAdj b a := by
  unfold exAdj
  apply decide_eq_decide.2
  simp only [List.mem_cons, Prod.mk.injEq, List.not_mem_nil, or_false]
  omega

theorem exConnected : Connected [2, 0, 1, 3] exAdj exW := by
  have h1 : Chain [2, 0, 1, 3] exAdj exW 0 1 _ := chain_one (by decide) (by decide) (by decide)
  have h2 : Chain [2, 0, 1, 3] exAdj exW 0 2 _ := .step h1 (by decide) (by decide)
  have h3 : Chain [2, 0, 1, 3] exAdj exW 0 3 _ := .step h2 (by decide) (by decide)
  have from0 : ∀ b ∈ [2, 0, 1, 3], ∃ l, Chain [2, 0, 1, 3] exAdj exW 0 b l := by
    intro b hb
    simp only [List.mem_cons, List.not_mem_nil, or_false] at hb
    rcases hb with rfl | rfl | rfl | rfl
    · exact ⟨_, h2⟩
    · exact ⟨_, .here (by decide)⟩
    · exact ⟨_, h1⟩
    · exact ⟨_, h3⟩
  intro a ha b hb
  obtain ⟨l, hl⟩ := from0 a ha
  obtain ⟨m, hm⟩ := from0 b hb
  exact ⟨_, chain_trans (chain_symm exAdj_symm exW_symm hl) hm⟩

/-- The hypotheses of the theorems above hold for these voxels. -/
example : [2, 0, 1, 3].Nodup ∧ (∀ a ∈ [2, 0, 1, 3], ∀ b ∈ [2, 0, 1, 3], exAdj a b = true → 0 < exW a b) ∧ (∀ a ∈ [2, 0, 1, 3], ∀ b ∈ [2, 0, 1, 3], exPos a = exPos b → a = b) := by decide +kernel

example : (dijkstra [2, 0, 1, 3] exAdj exW 0).toOption = some [(0, 0), (1, 3), (2, 6), (3, 9)] := by decide +kernel
example : (shortestPaths exPos [2, 0, 1, 3] exAdj exW).toOption = some
    [(3, [(3, 0), (2, 3), (1, 6), (0, 9)]), (2, [(3, 3), (2, 0), (1, 3), (0, 6)]), (1, [(3, 6), (2, 3), (1, 0), (0, 3)]), (0, [(3, 9), (2, 6), (1, 3), (0, 0)])] := by decide +kernel
example : (findExtrema exPos [2, 0, 1, 3] exAdj exW).toOption = some (some (3, 0)) ∧ (length exPos [2, 0, 1, 3] exAdj exW).toOption = some 9 := by decide +kernel
/-- A voxel that is not linked to the others. -/
example : (length exPos [2, 0, 1, 3, 7] exAdj exW).toOption = none := by decide +kernel
/-- A single voxel. -/
example : (findExtrema exPos [5] exAdj exW).toOption = some (some (5, 5)) ∧ (length exPos [5] exAdj exW).toOption = some 0 := by decide +kernel
/-- Two voxels in the same place: the extremes are lost. -/
example : (findExtrema exPos [0, 1] exAdj (fun _ _ => 0)).toOption = some none := by decide +kernel
/-- Straight lines between three linked voxels, for `length_at_least`. -/
example : (∀ a ∈ [1, 2, 3], ∀ b ∈ [1, 2, 3], ∀ c ∈ [1, 2, 3], exW a c ≤ exW a b + exW b c) ∧ ∀ a ∈ [1, 2, 3], exW a a = 0 := by decide +kernel
example : (3 : ℚ) ≤ 6 ∧ voxelsWithin [(3, (0 : ℚ)), (2, 3), (1, 6), (0, 9)] 6 = [3, 2] := by decide +kernel

/-- Three voxels, two of them linked; the last without hits. -/
def exVoxels : List Node := [⟨0, ⟨0, 0, 0, 5, 1, 1, 1, [⟨0, 0, 0, 2, 0⟩, ⟨1/4, 0, 0, 3, 1⟩]⟩⟩, ⟨1, ⟨1, 0, 0, 7, 1, 1, 1, [⟨1, 0, 0, 7, 2⟩]⟩⟩, ⟨2, ⟨9, 0, 0, 1, 1, 1, 1, []⟩⟩]
def exDist (a b : Node) : ℚ := |a.vox.x - b.vox.x|

example : exVoxels.Nodup ∧ ∀ a ∈ exVoxels, ∀ b ∈ exVoxels, a ≠ b → 0 < exDist a b := by decide +kernel
example (a b : Node) : exDist a b = exDist b a := abs_sub_comm _ _
example : ((makeTracks exDist (fun _ => 1) exVoxels .corner (1/2)).toOption.map fun ts => ts.map fun t => (t.voxels.length, t.e, t.blobA.e, t.blobB.e)) = some [(2, 12, 7, 5), (1, 1, 0, 0)] := by
  decide +kernel
/-- The blobs of a track whose voxels have no hits have no energy, whereas `blob_energies` gives that of the voxels. -/
example : ((makeTracks exDist (fun _ => 1) exVoxels .corner (1/2)).toOption.map fun ts => ts.map fun t => t.blobA.e) = some [7, 0] ∧
    ((shortestPaths nodePos [⟨2, ⟨9, 0, 0, 1, 1, 1, 1, []⟩⟩] (fun _ _ => false) exDist).toOption.bind fun table => ((Tracks.blobs [⟨2, ⟨9, 0, 0, 1, 1, 1, 1, []⟩⟩] table (1/2) none fun _ => 1).toOption.map fun p => p.1.e)) = some 1 := by
  decide +kernel

end Verif.ShortestPaths
