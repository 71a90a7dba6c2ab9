import Verif.Spec.CityArgs
import Verif.Props.CityConfig
/-!
# C110: the parameters that a job stores
-/
namespace Verif.CityArgs
open Verif.Components Verif.CityConfig

/-! ### Dictionaries -/

theorem good_at {h : Heap} (hg : Good h) (a : Nat) : ((h.getD a []).map Prod.fst).Nodup ∧ (∀ k ∈ (h.getD a []).map Prod.fst, k ≠ "" ∧ '.' ∉ k.toList) ∧
    ∀ k b, (k, Value.ref b) ∈ h.getD a [] → b < h.length := by
  by_cases ha : a < h.length
  · have : h.getD a [] = h[a] := by simp [List.getD, ha]
    rw [this]
    exact ⟨(hg.keys _ (List.getElem_mem _)).1, (hg.keys _ (List.getElem_mem _)).2, hg.closed _ (List.getElem_mem _)⟩
  · have : h.getD a [] = [] := by simp [List.getD, ha]
    rw [this]
    simp

theorem lookup_iff {o : Obj} (hn : (o.map Prod.fst).Nodup) {k : String} {v : Value} : o.lookup k = some v ↔ (k, v) ∈ o := by
  induction o with
  | nil => simp
  | cons x xs ih =>
    obtain ⟨m, u⟩ := x
    simp only [List.map_cons, List.nodup_cons] at hn
    rw [List.lookup_cons]
    by_cases hk : k = m
    · subst hk
      simp only [beq_self_eq_true, List.mem_cons, Option.some.injEq, Prod.mk.injEq, true_and]
      constructor
      · rintro rfl; exact Or.inl rfl
      · rintro (rfl | h)
        · rfl
        · exact absurd (List.mem_map.2 ⟨_, h, rfl⟩) hn.1
    · have hb : (k == m) = false := by simpa using hk
      rw [hb]
      simp only [ih hn.2, List.mem_cons, Prod.mk.injEq]
      constructor
      · exact Or.inr
      · rintro (⟨h, _⟩ | h)
        · exact absurd h hk
        · exact h

theorem get_iff {h : Heap} (hg : Good h) {a : Nat} {k : String} {v : Value} : get h a k = .ok v ↔ (k, v) ∈ h.getD a [] := by
  rw [← lookup_iff (good_at hg a).1]
  unfold get
  cases (h.getD a []).lookup k <;> simp

theorem get_error {h : Heap} {a : Nat} {k : String} {e : PyErr} (he : get h a k = .error e) : e = .keyError := by
  unfold get at he
  split at he
  · injection he with he; exact he.symm
  · cases he

theorem get_absent {h : Heap} {a : Nat} {k : String} (hk : k ∉ (h.getD a []).map Prod.fst) : get h a k = .error .keyError := by
  have : (h.getD a []).lookup k = none := by
    rw [List.lookup_eq_none_iff]
    intro x hx
    have : k ≠ x.1 := fun he => hk (he ▸ List.mem_map_of_mem hx)
    simpa using this
  simp only [get, this]

theorem get_present {h : Heap} {a : Nat} {k : String} (hk : k ∈ (h.getD a []).map Prod.fst) : ∃ v, get h a k = .ok v := by
  cases hl : (h.getD a []).lookup k with
  | some v => exact ⟨v, by simp only [get, hl]⟩
  | none =>
    rw [List.lookup_eq_none_iff] at hl
    obtain ⟨x, hx, rfl⟩ := List.mem_map.1 hk
    simpa using hl x hx

theorem getDict_iff {h : Heap} (hg : Good h) {a : Nat} {k : String} {b : Nat} : getDict h a k = .ok b ↔ (k, .ref b) ∈ h.getD a [] := by
  rw [← get_iff hg]
  unfold getDict
  cases hk : get h a k with
  | error e => simp
  | ok v => cases v <;> simp

theorem put_keys (o : Obj) (k : String) (v : Value) (m : String) : m ∈ (put o k v).map Prod.fst ↔ m = k ∨ m ∈ o.map Prod.fst := by
  induction o with
  | nil => simp [put]
  | cons x xs ih =>
    unfold put
    split
    · rename_i h; simp [h]
    · simp only [List.map_cons, List.mem_cons, ih]; tauto

theorem put_nodup {o : Obj} (k : String) (v : Value) (hn : (o.map Prod.fst).Nodup) : ((put o k v).map Prod.fst).Nodup := by
  induction o with
  | nil => simp [put]
  | cons x xs ih =>
    simp only [List.map_cons, List.nodup_cons] at hn
    unfold put
    split
    · rename_i h; simp only [List.map_cons, List.nodup_cons]; exact ⟨h ▸ hn.1, hn.2⟩
    · rename_i h
      simp only [List.map_cons, List.nodup_cons, put_keys]
      refine ⟨?_, ih hn.2⟩
      rintro (h' | h')
      · exact h h'
      · exact hn.1 h'

theorem mem_put {o : Obj} (hn : (o.map Prod.fst).Nodup) {k m : String} {v w : Value} : (m, w) ∈ put o k v ↔ if m = k then w = v else (m, w) ∈ o := by
  induction o with
  | nil => by_cases h : m = k <;> simp [put, h]
  | cons x xs ih =>
    obtain ⟨n, u⟩ := x
    simp only [List.map_cons, List.nodup_cons] at hn
    unfold put
    by_cases hx : n = k
    · subst hx
      simp only [if_true, List.mem_cons, Prod.mk.injEq]
      by_cases hm : m = n
      · subst hm
        simp only [true_and, if_true]
        constructor
        · rintro (h | h)
          · exact h
          · exact absurd (List.mem_map.2 ⟨_, h, rfl⟩) hn.1
        · exact Or.inl
      · simp [hm]
    · simp only [hx, if_false, List.mem_cons, Prod.mk.injEq, ih hn.2]
      by_cases hm : m = k
      · subst hm
        simp only [if_true]
        constructor
        · rintro (⟨h, _⟩ | h)
          · exact absurd h.symm hx
          · exact h
        · exact Or.inr
      · simp [hm]

theorem mem_without {o : Obj} {k m : String} {w : Value} : (m, w) ∈ without o k ↔ (m, w) ∈ o ∧ m ≠ k := by simp [without]

theorem without_keys {o : Obj} {k m : String} : m ∈ (without o k).map Prod.fst ↔ m ∈ o.map Prod.fst ∧ m ≠ k := by
  simp only [List.mem_map, Prod.exists, mem_without]
  constructor
  · rintro ⟨a, b, ⟨h1, h2⟩, rfl⟩; exact ⟨⟨a, b, h1, rfl⟩, h2⟩
  · rintro ⟨⟨a, b, h1, rfl⟩, h2⟩; exact ⟨a, b, ⟨h1, h2⟩, rfl⟩

theorem without_nodup {o : Obj} (k : String) (hn : (o.map Prod.fst).Nodup) : ((without o k).map Prod.fst).Nodup :=
  hn.sublist (List.Sublist.map _ List.filter_sublist)

theorem getD_set {h : Heap} {d : Nat} (hd : d < h.length) (o : Obj) (a : Nat) : (h.set d o).getD a [] = if a = d then o else h.getD a [] := by
  simp only [List.getD, List.getElem?_set]
  by_cases had : a = d
  · subst had; simp [hd]
  · have : ¬ d = a := fun e => had e.symm
    simp [had, this]

/-- The properties of a dictionary that are kept. -/
structure GoodObj (n : Nat) (o : Obj) : Prop where
  nodup : (o.map Prod.fst).Nodup
  keys : ∀ k ∈ o.map Prod.fst, k ≠ "" ∧ '.' ∉ k.toList
  closed : ∀ k b, (k, Value.ref b) ∈ o → b < n

theorem goodObj {h : Heap} (hg : Good h) (a : Nat) : GoodObj h.length (h.getD a []) := ⟨(good_at hg a).1, (good_at hg a).2.1, (good_at hg a).2.2⟩

theorem GoodObj.put {n : Nat} {o : Obj} (hg : GoodObj n o) {k : String} {v : Value} (hk : k ≠ "" ∧ '.' ∉ k.toList) (hv : ∀ b, v = .ref b → b < n) : GoodObj n (put o k v) := by
  refine ⟨put_nodup k v hg.nodup, ?_, ?_⟩
  · intro m hm
    rcases (put_keys o k v m).1 hm with rfl | h
    · exact hk
    · exact hg.keys m h
  · intro m b hm
    rw [mem_put hg.nodup] at hm
    split at hm
    · exact hv b hm.symm
    · exact hg.closed m b hm

theorem GoodObj.without {n : Nat} {o : Obj} (hg : GoodObj n o) (k : String) : GoodObj n (without o k) :=
  ⟨without_nodup k hg.nodup, fun m hm => hg.keys m (without_keys.1 hm).1, fun m b hm => hg.closed m b (mem_without.1 hm).1⟩

theorem good_set {h : Heap} (hg : Good h) {d : Nat} {o : Obj} (ho : GoodObj h.length o) : Good (h.set d o) := by
  refine ⟨?_, ?_⟩
  · intro x hx
    rcases List.mem_or_eq_of_mem_set hx with h1 | rfl
    · exact hg.keys x h1
    · exact ⟨ho.nodup, ho.keys⟩
  · intro x hx k b hk
    rw [List.length_set]
    rcases List.mem_or_eq_of_mem_set hx with h1 | rfl
    · exact hg.closed x h1 k b hk
    · exact ho.closed k b hk

/-! ### What `dict_to_string` sees -/

theorem tree_spec {h : Heap} (hg : Good h) : ∀ (n a : Nat) (t : Cfgs), tree n h a = .ok t →
    t.Clean ∧ (∀ P s, HasLeaf t P s ↔ ∃ p : List String, P = p.map String.toList ∧ Param h a p s) := by
  intro n
  induction n with
  | zero => intro a t ht; cases ht
  | succ n ih =>
    intro a t ht
    have go : ∀ (o : Obj) (t : Cfgs), (o.map Prod.fst).Nodup → (∀ k ∈ o.map Prod.fst, k ≠ "" ∧ '.' ∉ k.toList) → treeItems (tree n h) o = .ok t →
        t.Clean ∧ (∀ k, k ∈ t.keys ↔ ∃ m ∈ o.map Prod.fst, k = m.toList) ∧
        (∀ P s, HasLeaf t P s ↔ ∃ k p, P = String.toList k :: p.map String.toList ∧
          ((p = [] ∧ ∃ v, (k, v) ∈ o ∧ (∀ b, v ≠ .ref b) ∧ s = shown v) ∨ ∃ b, (k, .ref b) ∈ o ∧ Param h b p s)) := by
      intro o
      induction o with
      | nil =>
        intro t _ _ ht
        simp only [treeItems, Except.ok.injEq] at ht
        subst ht
        refine ⟨trivial, by simp [Cfgs.keys], ?_⟩
        intro P s
        constructor
        · intro hh; cases hh
        · rintro ⟨k, p, _, ⟨_, v, hv, _⟩ | ⟨b, hb, _⟩⟩
          · cases hv
          · cases hb
      | cons x xs ihx =>
        obtain ⟨k, v⟩ := x
        intro t hn hk ht
        simp only [List.map_cons, List.nodup_cons] at hn
        have hk1 := hk k (by simp)
        have hks : ∀ m ∈ xs.map Prod.fst, m ≠ "" ∧ '.' ∉ m.toList := fun m hm => hk m (by simp only [List.map_cons, List.mem_cons]; exact Or.inr hm)
        have hkne : k.toList ≠ [] := by
          intro he
          apply hk1.1
          rw [← String.toList_inj]; simpa using he
        -- a value that is not a dictionary
        have leafCase : (∀ b, v ≠ .ref b) → ∀ r, treeItems (tree n h) xs = .ok r → t = .cons k.toList (.leaf (shown v)) r →
            t.Clean ∧ (∀ m, m ∈ t.keys ↔ ∃ m' ∈ (((k, v) :: xs).map Prod.fst), m = m'.toList) ∧
            (∀ P s, HasLeaf t P s ↔ ∃ m p, P = String.toList m :: p.map String.toList ∧
              ((p = [] ∧ ∃ w, (m, w) ∈ (k, v) :: xs ∧ (∀ b, w ≠ .ref b) ∧ s = shown w) ∨ ∃ b, (m, .ref b) ∈ (k, v) :: xs ∧ Param h b p s)) := by
          intro hv r hr hte
          obtain ⟨c1, c2, c3⟩ := ihx r hn.2 hks hr
          subst hte
          refine ⟨⟨hkne, hk1.2, ?_, trivial, c1⟩, ?_, ?_⟩
          · rw [c2]
            rintro ⟨m, hm, he⟩
            rw [String.toList_inj] at he
            exact hn.1 (he ▸ hm)
          · intro m
            simp only [Cfgs.keys, List.mem_cons, c2, List.map_cons, exists_eq_or_imp]
          · intro P s
            constructor
            · intro hh
              cases hh with
              | here => exact ⟨k, [], rfl, Or.inl ⟨rfl, v, List.mem_cons_self, hv, rfl⟩⟩
              | later h2 =>
                obtain ⟨m, p, hP, hcase⟩ := (c3 P s).1 h2
                refine ⟨m, p, hP, ?_⟩
                rcases hcase with ⟨hp, w, hw, h3⟩ | ⟨b, hb, h3⟩
                · exact Or.inl ⟨hp, w, List.mem_cons_of_mem _ hw, h3⟩
                · exact Or.inr ⟨b, List.mem_cons_of_mem _ hb, h3⟩
            · rintro ⟨m, p, rfl, ⟨rfl, w, hw, hnr, rfl⟩ | ⟨b, hb, h3⟩⟩
              · rcases List.mem_cons.1 hw with he | hw
                · obtain ⟨rfl, rfl⟩ := Prod.mk.inj he
                  exact .here
                · exact .later ((c3 _ _).2 ⟨m, [], rfl, Or.inl ⟨rfl, w, hw, hnr, rfl⟩⟩)
              · rcases List.mem_cons.1 hb with he | hb
                · obtain ⟨_, he⟩ := Prod.mk.inj he
                  exact absurd he.symm (hv b)
                · exact .later ((c3 _ _).2 ⟨m, p, rfl, Or.inr ⟨b, hb, h3⟩⟩)
        cases v with
        | ref b =>
          simp only [treeItems] at ht
          cases hd : tree n h b with
          | error e => simp [hd] at ht
          | ok d =>
          cases hr : treeItems (tree n h) xs with
          | error e => simp [hd, hr] at ht
          | ok r =>
          simp only [hd, hr, Except.ok.injEq] at ht
          subst ht
          obtain ⟨c1, c2, c3⟩ := ihx r hn.2 hks hr
          obtain ⟨d1, d2⟩ := ih b d hd
          refine ⟨⟨hkne, hk1.2, ?_, d1, c1⟩, ?_, ?_⟩
          · rw [c2]
            rintro ⟨m, hm, he⟩
            rw [String.toList_inj] at he
            exact hn.1 (he ▸ hm)
          · intro m
            simp only [Cfgs.keys, List.mem_cons, c2, List.map_cons, exists_eq_or_imp]
          · intro P s
            constructor
            · intro hh
              cases hh with
              | inside h2 =>
                obtain ⟨p, rfl, hp⟩ := (d2 _ s).1 h2
                exact ⟨k, p, rfl, Or.inr ⟨b, List.mem_cons_self, hp⟩⟩
              | later h2 =>
                obtain ⟨m, p, hP, hcase⟩ := (c3 P s).1 h2
                refine ⟨m, p, hP, ?_⟩
                rcases hcase with ⟨hp, w, hw, h3⟩ | ⟨b', hb, h3⟩
                · exact Or.inl ⟨hp, w, List.mem_cons_of_mem _ hw, h3⟩
                · exact Or.inr ⟨b', List.mem_cons_of_mem _ hb, h3⟩
            · rintro ⟨m, p, rfl, ⟨rfl, w, hw, hnr, rfl⟩ | ⟨b', hb, h3⟩⟩
              · rcases List.mem_cons.1 hw with he | hw
                · obtain ⟨_, rfl⟩ := Prod.mk.inj he
                  exact absurd rfl (hnr b)
                · exact .later ((c3 _ _).2 ⟨m, [], rfl, Or.inl ⟨rfl, w, hw, hnr, rfl⟩⟩)
              · rcases List.mem_cons.1 hb with he | hb
                · obtain ⟨hmk, he⟩ := Prod.mk.inj he
                  injection he with he
                  subst he hmk
                  exact .inside ((d2 _ _).2 ⟨p, rfl, h3⟩)
                · exact .later ((c3 _ _).2 ⟨m, p, rfl, Or.inr ⟨b', hb, h3⟩⟩)
        | none =>
          simp only [treeItems] at ht
          cases hr : treeItems (tree n h) xs with
          | error e => simp [hr] at ht
          | ok r => simp only [hr, Except.ok.injEq] at ht; exact leafCase (by simp) r hr ht.symm
        | int z =>
          simp only [treeItems] at ht
          cases hr : treeItems (tree n h) xs with
          | error e => simp [hr] at ht
          | ok r => simp only [hr, Except.ok.injEq] at ht; exact leafCase (by simp) r hr ht.symm
        | seq l z =>
          simp only [treeItems] at ht
          cases hr : treeItems (tree n h) xs with
          | error e => simp [hr] at ht
          | ok r => simp only [hr, Except.ok.injEq] at ht; exact leafCase (by simp) r hr ht.symm
        | leaf z =>
          simp only [treeItems] at ht
          cases hr : treeItems (tree n h) xs with
          | error e => simp [hr] at ht
          | ok r => simp only [hr, Except.ok.injEq] at ht; exact leafCase (by simp) r hr ht.symm
    obtain ⟨g1, _, g3⟩ := go _ t (good_at hg a).1 (good_at hg a).2.1 ht
    refine ⟨g1, fun P s => ?_⟩
    rw [g3]
    constructor
    · rintro ⟨k, p, rfl, ⟨rfl, v, hv, hnr, rfl⟩ | ⟨b, hb, hp⟩⟩
      · exact ⟨[k], rfl, .here hv hnr⟩
      · exact ⟨k :: p, rfl, .inside hb hp⟩
    · rintro ⟨p, rfl, hp⟩
      cases hp with
      | here hv hnr => exact ⟨_, [], rfl, Or.inl ⟨rfl, _, hv, hnr, rfl⟩⟩
      | inside hb hp => exact ⟨_, _, rfl, Or.inr ⟨_, hb, hp⟩⟩

theorem confTable_stores {h : Heap} (hg : Good h) {n a : Nat} {t : Cfgs} (ht : tree n h a = .ok t) (r : List TableIO.Cell) :
    r ∈ (confTable t).rows ↔ ∃ path s, Param h a path s ∧ r = rowOf path s := by
  obtain ⟨hc, hl⟩ := tree_spec hg n a t ht
  obtain ⟨hd, _⟩ := dictToString_spec t hc
  simp only [confTable, List.mem_map, Prod.exists]
  constructor
  · rintro ⟨s, v, hm, rfl⟩
    obtain ⟨P, hP, rfl⟩ := (hd s v).1 hm
    obtain ⟨p, rfl, hp⟩ := (hl P v).1 hP
    exact ⟨p, v, hp, rfl⟩
  · rintro ⟨p, v, hp, rfl⟩
    exact ⟨_, _, (hd _ v).2 ⟨_, (hl _ v).2 ⟨p, rfl, hp⟩, rfl⟩, rfl⟩

/-! ### Jobs -/

/-- The parts of a job that ends. -/
theorem job_parts {limit : Nat} {city : String} {body : Heap → Nat → Heap × Except PyErr Unit} {h h' : Heap} {a : Nat} {fin fout g : TableIO.File}
    (hj : job limit city body h a fin fout = (h', g, .ok ())) :
    body h a = (h', .ok ()) ∧ ∃ t idx, tree limit h' a = .ok t ∧ finish city t fin fout = (g, .ok idx) := by
  unfold job at hj
  rcases hb : body h a with ⟨h1, r⟩
  rw [hb] at hj
  cases r with
  | error e => simp at hj
  | ok u =>
  cases ht : tree limit h1 a with
  | error e => simp [ht] at hj
  | ok t =>
  rcases hf : finish city t fin fout with ⟨g1, r⟩
  simp only [ht, hf] at hj
  cases r with
  | error e => simp at hj
  | ok idx =>
    simp only [Prod.mk.injEq, and_true] at hj
    obtain ⟨rfl, rfl⟩ := hj
    exact ⟨rfl, t, idx, ht, hf⟩

/-- A job that ends stores the parameters as the city left them. -/
theorem job_stores {limit : Nat} {city : String} {body : Heap → Nat → Heap × Except PyErr Unit} {h h' : Heap} {a : Nat} {fin fout g : TableIO.File}
    (hi : GoodFile fin) (ho : GoodFile fout) (hno : NoConfig fout) (hnew : fin.get ("config", city) = none) (hg : Good h')
    (hj : job limit city body h a fin fout = (h', g, .ok ())) : Stores g city (Param h' a) := by
  obtain ⟨_, t, idx, ht, hf⟩ := job_parts hj
  obtain ⟨g1, idx1, hf1, hfin, _⟩ := finish_ok city t fin fout hi ho hno hnew
  rw [hf1] at hf
  obtain ⟨rfl, _⟩ := Prod.mk.inj hf
  exact ⟨_, hfin.own, fun r => confTable_stores hg ht r⟩

/-- C110. A city without operations on its dictionaries stores its parameters. -/
theorem plain_stores {limit : Nat} {city : String} {rest : Except PyErr Unit} {h h' : Heap} {a : Nat} {fin fout g : TableIO.File}
    (hi : GoodFile fin) (ho : GoodFile fout) (hno : NoConfig fout) (hnew : fin.get ("config", city) = none) (hg : Good h)
    (hj : job limit city (plain rest) h a fin fout = (h', g, .ok ())) : h' = h ∧ Stores g city (Param h a) := by
  have hb := (job_parts hj).1
  simp only [plain, Prod.mk.injEq] at hb
  obtain ⟨rfl, _⟩ := hb
  exact ⟨rfl, job_stores hi ho hno hnew hg hj⟩

/-! ### detsim -/

theorem prefix_set {h k : Heap} {d : Nat} {o : Obj} (hp : h <+: k) (hd : h.length ≤ d) : h <+: k.set d o := by
  obtain ⟨r, rfl⟩ := hp
  rw [List.set_append_right _ _ hd]
  exact List.prefix_append _ _

theorem prefix_pop {h k : Heap} {d : Nat} {key : String} (hp : h <+: k) (hd : h.length ≤ d) : h <+: (pop k d key).1 := by
  unfold pop
  split
  · exact hp
  · exact prefix_set hp hd

theorem detsim_prefix (maxTime : Value → Value → Value) (rest : Except PyErr Unit) (h : Heap) (a : Nat) : h <+: (detsim maxTime rest h a).1 := by
  unfold detsim
  split
  · exact List.prefix_rfl
  · rename_i b _
    have h1 : h <+: (copy h b).1 := List.prefix_append _ _
    split
    · exact h1
    · rename_i p _
      have h2 : h <+: (copy (copy h b).1 p).1 := h1.trans (List.prefix_append _ _)
      have hb : h.length ≤ (copy h b).2 := Nat.le_refl _
      have hpl : h.length ≤ (copy (copy h b).1 p).2 := h1.length_le
      unfold detsimCopies
      cases get (copy (copy h b).1 p).1 (copy h b).2 "max_time" with
      | error e => exact h2
      | ok m =>
      cases get (copy (copy h b).1 p).1 (copy h b).2 "length" with
      | error e => exact h2
      | ok l =>
      have h3 : h <+: setItem (copy (copy h b).1 p).1 (copy h b).2 "max_time" (maxTime m l) := prefix_set h2 hb
      have h4 := prefix_pop (key := "ws") h3 hpl
      simp only
      rcases hq : pop (setItem (copy (copy h b).1 p).1 (copy h b).2 "max_time" (maxTime m l)) (copy (copy h b).1 p).2 "ws" with ⟨k1, r1⟩
      rw [hq] at h4
      cases r1 with
      | error e => exact h4
      | ok v =>
      have h5 := prefix_pop (key := "el_drift_velocity") h4 hpl
      simp only
      rcases hq2 : pop k1 (copy (copy h b).1 p).2 "el_drift_velocity" with ⟨k2, r2⟩
      rw [hq2] at h5
      cases r2 with
      | error e => exact h5
      | ok v => exact h5

theorem tree_prefix {h k : Heap} (hg : Good h) (hp : h <+: k) : ∀ (n a : Nat), a < h.length → tree n k a = tree n h a := by
  intro n
  induction n with
  | zero => intros; rfl
  | succ n ih =>
    intro a ha
    have hd : k.getD a [] = h.getD a [] := by
      obtain ⟨r, rfl⟩ := hp
      simp [List.getD, List.getElem?_append_left ha]
    simp only [tree, hd]
    have hc := (good_at hg a).2.2
    generalize h.getD a [] = o at hc
    induction o with
    | nil => rfl
    | cons x xs ihx =>
      obtain ⟨m, v⟩ := x
      have := ihx fun k b hk => hc k b (List.mem_cons_of_mem _ hk)
      cases v with
      | ref b => simp only [treeItems, ih b (hc m b List.mem_cons_self), this]
      | none => simp only [treeItems, this]
      | int z => simp only [treeItems, this]
      | seq l z => simp only [treeItems, this]
      | leaf z => simp only [treeItems, this]

/-- C110. detsim works on copies: whatever happens, the dictionaries it is given stay as they are; and it stores its parameters. -/
theorem detsim_stores {limit : Nat} {maxTime : Value → Value → Value} {rest : Except PyErr Unit} {h h' : Heap} {a : Nat} {fin fout g : TableIO.File}
    (hi : GoodFile fin) (ho : GoodFile fout) (hno : NoConfig fout) (hnew : fin.get ("config", "detsim") = none) (hg : Good h) (ha : a < h.length)
    (hj : job limit "detsim" (detsim maxTime rest) h a fin fout = (h', g, .ok ())) : (∀ b < h.length, h'.getD b [] = h.getD b []) ∧ Stores g "detsim" (Param h a) := by
  obtain ⟨hb, t, idx, ht, hf⟩ := job_parts hj
  have hp : h <+: h' := by
    have := detsim_prefix maxTime rest h a
    rwa [hb] at this
  obtain ⟨g1, idx1, hf1, hfin, _⟩ := finish_ok "detsim" t fin fout hi ho hno hnew
  rw [hf1] at hf
  obtain ⟨rfl, _⟩ := Prod.mk.inj hf
  rw [tree_prefix hg hp limit a ha] at ht
  refine ⟨fun b hlt => ?_, _, hfin.own, fun r => confTable_stores hg ht r⟩
  obtain ⟨r, rfl⟩ := hp
  simp [List.getD, List.getElem?_append_left hlt]

theorem get_congr {h k : Heap} {a b : Nat} (he : h.getD a [] = k.getD b []) (key : String) : get h a key = get k b key := by
  unfold get; rw [he]

/-- The result of detsim depends only on what is in its two dictionaries. -/
theorem detsim_result {maxTime : Value → Value → Value} {rest : Except PyErr Unit} {h : Heap} {a b p : Nat} (hg : Good h) (ha : a < h.length) (hb : getDict h a "buffer_params" = .ok b)
    (hp : getDict h a "physics_params" = .ok p) :
    (detsim maxTime rest h a).2 = if "max_time" ∈ (h.getD b []).map Prod.fst ∧ "length" ∈ (h.getD b []).map Prod.fst ∧ "ws" ∈ (h.getD p []).map Prod.fst ∧
      "el_drift_velocity" ∈ (h.getD p []).map Prod.fst then rest else .error .keyError := by
  have hbl : b < h.length := (good_at hg a).2.2 _ _ ((getDict_iff hg).1 hb)
  have hpl : p < h.length := (good_at hg a).2.2 _ _ ((getDict_iff hg).1 hp)
  have g1 : ∀ (o : Obj) c, c < h.length → (h ++ [o]).getD c [] = h.getD c [] := fun o c hc => by simp [List.getD, List.getElem?_append_left hc]
  have hp' : getDict (copy h b).1 a "physics_params" = .ok p := by
    have e : get (copy h b).1 a "physics_params" = get h a "physics_params" := get_congr (g1 _ a ha) _
    unfold getDict at hp ⊢
    rw [e]; exact hp
  unfold detsim
  simp only [hb, hp']
  simp only [copy]
  have gp : (h ++ [h.getD b []]).getD p [] = h.getD p [] := g1 _ p hpl
  have hlen : (h ++ [h.getD b []]).length = h.length + 1 := by simp
  have eq : h ++ [h.getD b []] ++ [(h ++ [h.getD b []]).getD p []] = h ++ [h.getD b [], h.getD p []] := by rw [gp]; simp
  rw [eq, hlen]
  have gb : (h ++ [h.getD b [], h.getD p []]).getD h.length [] = h.getD b [] := by simp [List.getD]
  have gset : ∀ v, setItem (h ++ [h.getD b [], h.getD p []]) h.length "max_time" v = h ++ [put (h.getD b []) "max_time" v, h.getD p []] := by
    intro v
    unfold setItem
    rw [gb, List.set_append_right _ _ (Nat.le_refl _)]; simp
  have gq : ∀ o o' : Obj, (h ++ [o, o']).getD (h.length + 1) [] = o' := by
    intro o o'
    simp [List.getD, List.getElem?_append_right]
  unfold detsimCopies
  by_cases c1 : "max_time" ∈ (h.getD b []).map Prod.fst
  · obtain ⟨m, hm⟩ := get_present (h := h ++ [h.getD b [], h.getD p []]) (a := h.length) (by rw [gb]; exact c1)
    by_cases c2 : "length" ∈ (h.getD b []).map Prod.fst
    · obtain ⟨l, hl⟩ := get_present (h := h ++ [h.getD b [], h.getD p []]) (a := h.length) (by rw [gb]; exact c2)
      simp only [hm, hl, gset]
      by_cases c3 : "ws" ∈ (h.getD p []).map Prod.fst
      · obtain ⟨w, hw⟩ := get_present (h := h ++ [put (h.getD b []) "max_time" (maxTime m l), h.getD p []]) (a := h.length + 1) (by rw [gq]; exact c3)
        simp only [pop, hw, gq]
        have gset2 : ∀ o, (h ++ [put (h.getD b []) "max_time" (maxTime m l), h.getD p []]).set (h.length + 1) o = h ++ [put (h.getD b []) "max_time" (maxTime m l), o] := by
          intro o
          rw [List.set_append_right _ _ (by omega)]; simp
        rw [gset2]
        by_cases c4 : "el_drift_velocity" ∈ (h.getD p []).map Prod.fst
        · obtain ⟨x, hx⟩ := get_present (h := h ++ [put (h.getD b []) "max_time" (maxTime m l), without (h.getD p []) "ws"]) (a := h.length + 1) (k := "el_drift_velocity") (by
            rw [gq, without_keys]; exact ⟨c4, by decide⟩)
          simp only [hx, c1, c2, c3, c4, and_self, if_true]
        · rw [get_absent (by rw [gq, without_keys]; exact fun hh => c4 hh.1)]
          simp only [c4, and_false, if_false]
      · simp only [pop]
        rw [get_absent (by rw [gq]; exact c3)]
        simp only [c3, false_and, and_false, if_false]
    · simp only [hm]
      rw [get_absent (by rw [gb]; exact c2)]
      simp only [c2, false_and, and_false, if_false]
  · rw [get_absent (by rw [gb]; exact c1)]
    simp only [c1, false_and, if_false]

/-- C110. Any number of calls of detsim with the same arguments have the same result. -/
theorem detsim_again {maxTime : Value → Value → Value} {rest : Except PyErr Unit} {h : Heap} {a b p : Nat} (hg : Good h) (ha : a < h.length) (hb : getDict h a "buffer_params" = .ok b)
    (hp : getDict h a "physics_params" = .ok p) (hr : ∀ m l c, maxTime m l ≠ .ref c) (n : Nat) :
    calls (detsim maxTime rest) a n h = List.replicate n (detsim maxTime rest h a).2 := by
  have hbl : b < h.length := (good_at hg a).2.2 _ _ ((getDict_iff hg).1 hb)
  have hpl : p < h.length := (good_at hg a).2.2 _ _ ((getDict_iff hg).1 hp)
  -- the objects of the heap stay, and the new ones are dictionaries too
  have goodApp : ∀ {k : Heap} (o : Obj), Good k → GoodObj k.length o → Good (k ++ [o]) := by
    intro k o hk ho
    refine ⟨?_, ?_⟩
    · intro x hx
      rcases List.mem_append.1 hx with h1 | h1
      · exact hk.keys x h1
      · rw [List.mem_singleton.1 h1]; exact ⟨ho.nodup, ho.keys⟩
    · intro x hx q c hc
      rw [List.length_append]
      rcases List.mem_append.1 hx with h1 | h1
      · have := hk.closed x h1 q c hc; omega
      · rw [List.mem_singleton.1 h1] at hc
        have := ho.closed q c hc; omega
  have goodPop : ∀ {k : Heap} (d : Nat) (key : String), Good k → Good (pop k d key).1 := by
    intro k d key hk
    unfold pop
    split
    · exact hk
    · exact good_set hk ((goodObj hk d).without _)
  have keep : ∀ k : Heap, Good k → Good (detsim maxTime rest k a).1 := by
    intro k hk
    unfold detsim
    split
    · exact hk
    · rename_i b' _
      have k1 : Good (copy k b').1 := goodApp _ hk (goodObj hk b')
      split
      · exact k1
      · rename_i p' _
        have k2 : Good (copy (copy k b').1 p').1 := goodApp _ k1 (goodObj k1 p')
        unfold detsimCopies
        cases get (copy (copy k b').1 p').1 (copy k b').2 "max_time" with
        | error e => exact k2
        | ok m =>
        cases get (copy (copy k b').1 p').1 (copy k b').2 "length" with
        | error e => exact k2
        | ok l =>
        have k3 : Good (setItem (copy (copy k b').1 p').1 (copy k b').2 "max_time" (maxTime m l)) :=
          good_set k2 ((goodObj k2 _).put (by decide) fun c hc => absurd hc (hr m l c))
        have k4 := goodPop (copy (copy k b').1 p').2 "ws" k3
        simp only
        rcases hq : pop (setItem (copy (copy k b').1 p').1 (copy k b').2 "max_time" (maxTime m l)) (copy (copy k b').1 p').2 "ws" with ⟨x1, r1⟩
        rw [hq] at k4
        cases r1 with
        | error e => exact k4
        | ok v =>
        have k5 := goodPop (copy (copy k b').1 p').2 "el_drift_velocity" k4
        simp only
        rcases hq2 : pop x1 (copy (copy k b').1 p').2 "el_drift_velocity" with ⟨x2, r2⟩
        rw [hq2] at k5
        cases r2 with
        | error e => exact k5
        | ok v => exact k5
  have all : ∀ n (k : Heap), Good k → h <+: k → calls (detsim maxTime rest) a n k = List.replicate n (detsim maxTime rest h a).2 := by
    intro n
    induction n with
    | zero => intros; rfl
    | succ n ih =>
      intro k hk hpre
      have same : ∀ c, c < h.length → k.getD c [] = h.getD c [] := by
        intro c hc
        obtain ⟨r, rfl⟩ := hpre
        simp [List.getD, List.getElem?_append_left hc]
      have hka : a < k.length := Nat.lt_of_lt_of_le ha hpre.length_le
      have hkb : getDict k a "buffer_params" = .ok b := by unfold getDict at hb ⊢; rw [get_congr (same a ha)]; exact hb
      have hkp : getDict k a "physics_params" = .ok p := by unfold getDict at hp ⊢; rw [get_congr (same a ha)]; exact hp
      have hres : (detsim maxTime rest k a).2 = (detsim maxTime rest h a).2 := by
        rw [detsim_result hk hka hkb hkp, detsim_result hg ha hb hp, same b hbl, same p hpl]
      rw [calls, List.replicate_succ, hres, ih _ (keep k hk) (hpre.trans (detsim_prefix maxTime rest k a))]
  exact all n h hg List.prefix_rfl

/-! ### Changes of a dictionary -/

theorem leads_snoc {h : Heap} {a b c : Nat} {p : List String} {k : String} (hl : Leads h a p b) (hk : (k, .ref c) ∈ h.getD b []) : Leads h a (p ++ [k]) c := by
  induction hl with
  | here => exact .step hk .here
  | step hm _ ih => exact .step hm (ih hk)

/-- What cannot reach the changed dictionary does not change. -/
theorem param_avoid {h : Heap} {d : Nat} (hd : d < h.length) (o : Obj) : ∀ {p : List String} {c : Nat} {s : String}, (∀ q, ¬ Leads h c q d) →
    (Param (h.set d o) c p s ↔ Param h c p s) := by
  intro p
  induction p with
  | nil => intro c s _; constructor <;> (intro hh; cases hh)
  | cons k p ih =>
    intro c s hav
    have hne : c ≠ d := fun he => hav [] (he ▸ .here)
    have hget : (h.set d o).getD c [] = h.getD c [] := by rw [getD_set hd, if_neg hne]
    constructor
    · intro hh
      cases hh with
      | here hv hnr => exact .here (hget ▸ hv) hnr
      | inside hb hp =>
        rw [hget] at hb
        exact .inside hb ((ih fun q hq => hav _ (.step hb hq)).1 hp)
    · intro hh
      cases hh with
      | here hv hnr => exact .here (hget.symm ▸ hv) hnr
      | inside hb hp => exact .inside (hget.symm ▸ hb) ((ih fun q hq => hav _ (.step hb hq)).2 hp)

/-- The parameters after a change of the dictionary under a key of the root: those of the others do not change. -/
theorem param_set {h : Heap} (hg : Good h) {a d : Nat} (hs : Separate h a) {key : String} (hk : (key, .ref d) ∈ h.getD a []) (o : Obj)
    (ho : ∀ k c, (k, Value.ref c) ∈ o → ∀ q, ¬ Leads h c q d) (path : List String) (s : String) :
    Param (h.set d o) a path s ↔ (Param h a path s ∧ path.head? ≠ some key) ∨
      (∃ k v, path = [key, k] ∧ (k, v) ∈ o ∧ (∀ b, v ≠ .ref b) ∧ s = shown v) ∨ ∃ k c p, path = key :: k :: p ∧ (k, .ref c) ∈ o ∧ Param h c p s := by
  have hd : d < h.length := (good_at hg a).2.2 key d hk
  have hone : Leads h a [key] d := .step hk .here
  have hne : a ≠ d := by
    intro he
    have := hs [] [key] d (he ▸ .here) hone
    cases this
  have hget : (h.set d o).getD a [] = h.getD a [] := by rw [getD_set hd, if_neg hne]
  have hgetd : (h.set d o).getD d [] = o := by rw [getD_set hd, if_pos rfl]
  have huniq : ∀ v, (key, v) ∈ h.getD a [] → v = .ref d := by
    intro v hv
    rw [← lookup_iff (good_at hg a).1] at hv hk
    rw [hk] at hv
    exact (Option.some.inj hv).symm
  have havoid : ∀ k c, (k, Value.ref c) ∈ h.getD a [] → k ≠ key → ∀ q, ¬ Leads h c q d := by
    intro k c hc hkk q hq
    have := hs (k :: q) [key] d (.step hc hq) hone
    exact hkk (List.cons.inj this).1
  constructor
  · intro hh
    cases hh with
    | @here _ k v hv hnr =>
      rw [hget] at hv
      refine Or.inl ⟨.here hv hnr, ?_⟩
      intro he
      simp only [List.head?_cons, Option.some.injEq] at he
      exact hnr d (huniq v (he ▸ hv))
    | @inside _ k b p _ hb hp =>
      rw [hget] at hb
      by_cases hkk : k = key
      · subst hkk
        have hbd := huniq _ hb
        injection hbd with hbd
        subst hbd
        cases hp with
        | here hv hnr => rw [hgetd] at hv; exact Or.inr (Or.inl ⟨_, _, rfl, hv, hnr, rfl⟩)
        | inside hv hp =>
          rw [hgetd] at hv
          exact Or.inr (Or.inr ⟨_, _, _, rfl, hv, (param_avoid hd o (ho _ _ hv)).1 hp⟩)
      · exact Or.inl ⟨.inside hb ((param_avoid hd o (havoid k b hb hkk)).1 hp), by simpa using hkk⟩
  · rintro (⟨hh, hhd⟩ | ⟨k, v, rfl, hv, hnr, rfl⟩ | ⟨k, c, p, rfl, hc, hp⟩)
    · cases hh with
      | here hv hnr => exact .here (hget.symm ▸ hv) hnr
      | @inside _ k b p _ hb hp =>
        exact .inside (hget.symm ▸ hb) ((param_avoid hd o (havoid k b hb (by simpa using hhd))).2 hp)
    · exact .inside (hget.symm ▸ hk) (.here (hgetd.symm ▸ hv) hnr)
    · exact .inside (hget.symm ▸ hk) (.inside (hgetd.symm ▸ hc) ((param_avoid hd o (ho _ _ hc)).2 hp))

theorem own_avoid {h : Heap} {a d : Nat} (hs : Separate h a) {key : String} (hk : (key, .ref d) ∈ h.getD a []) {k : String} {c : Nat} (hc : (k, .ref c) ∈ h.getD d []) (q : List String) :
    ¬ Leads h c q d := by
  intro hq
  have := hs (key :: k :: q) [key] d (.step hk (.step hc hq)) (.step hk .here)
  simp at this

/-! ### diomira -/

theorem readAll_error {h : Heap} {a : Nat} : ∀ {ks : List String} {e : PyErr}, readAll h a ks = .error e → e = .keyError
  | [], _, he => by cases he
  | k :: ks, e, he => by
    unfold readAll at he
    cases hk : get h a k with
    | error e' => rw [hk] at he; injection he with he; exact he ▸ get_error hk
    | ok v => rw [hk] at he; exact readAll_error he

/-- What a call of diomira with the trigger S2 does to its dictionaries. -/
theorem diomira_parts {rest : Except PyErr Unit} {h h' : Heap} {a : Nat} {r : Except PyErr Unit} (ht : get h a "trigger_type" = .ok (.leaf "S2")) (hb : diomira rest h a = (h', r)) :
    (h' = h ∧ ∃ e, r = .error e) ∨ ∃ s, getDict h a "s2_params" = .ok s ∧ "n_baseline" ∈ (h.getD s []).map Prod.fst ∧ h' = h.set s (without (h.getD s []) "n_baseline") := by
  unfold diomira at hb
  simp only [ht] at hb
  cases h1 : getDict h a "trigger_params" with
  | error e => simp only [h1, Prod.mk.injEq] at hb; exact Or.inl ⟨hb.1.symm, e, hb.2.symm⟩
  | ok t =>
  simp only [h1] at hb
  cases h2 : readAll h t triggerKeys with
  | error e => simp only [h2, Prod.mk.injEq] at hb; exact Or.inl ⟨hb.1.symm, e, hb.2.symm⟩
  | ok u =>
  simp only [h2] at hb
  cases h3 : getDict h a "s2_params" with
  | error e => simp only [h3, Prod.mk.injEq] at hb; exact Or.inl ⟨hb.1.symm, e, hb.2.symm⟩
  | ok s =>
  simp only [h3, diomiraS2, pop] at hb
  cases h4 : get h s "n_baseline" with
  | error e => simp only [h4, Prod.mk.injEq] at hb; exact Or.inl ⟨hb.1.symm, e, hb.2.symm⟩
  | ok v =>
  simp only [h4] at hb
  refine Or.inr ⟨s, rfl, ?_, ?_⟩
  · by_contra hc
    rw [get_absent hc] at h4; cases h4
  · split at hb
    · exact (Prod.mk.inj hb).1.symm
    · exact (Prod.mk.inj hb).1.symm

/-- C110. With the trigger S2, diomira stores its parameters without `s2_params.n_baseline`, which was there. -/
theorem diomira_stores {limit : Nat} {rest : Except PyErr Unit} {h h' : Heap} {a : Nat} {fin fout g : TableIO.File}
    (hi : GoodFile fin) (ho : GoodFile fout) (hno : NoConfig fout) (hnew : fin.get ("config", "diomira") = none) (hg : Good h) (hs : Separate h a)
    (ht : get h a "trigger_type" = .ok (.leaf "S2")) (hj : job limit "diomira" (diomira rest) h a fin fout = (h', g, .ok ())) :
    Stores g "diomira" (fun path s => Param h a path s ∧ ¬ ["s2_params", "n_baseline"] <+: path) ∧
    ∃ s, ("s2_params", .ref s) ∈ h.getD a [] ∧ "n_baseline" ∈ (h.getD s []).map Prod.fst := by
  rcases diomira_parts ht (job_parts hj).1 with ⟨_, e, he⟩ | ⟨d, h1, h2, rfl⟩
  · cases he
  have hk := (getDict_iff hg).1 h1
  refine ⟨?_, d, hk, h2⟩
  obtain ⟨t, t1, t2⟩ := job_stores hi ho hno hnew (good_set hg ((goodObj hg d).without _)) hj
  refine ⟨t, t1, fun r => ?_⟩
  rw [t2]
  have hp := param_set hg hs hk (without (h.getD d []) "n_baseline") (fun k c hc => own_avoid hs hk (mem_without.1 hc).1)
  have huniq : ∀ v, ("s2_params", v) ∈ h.getD a [] → v = .ref d := by
    intro v hv
    rw [← lookup_iff (good_at hg a).1] at hv hk
    rw [hk] at hv
    exact (Option.some.inj hv).symm
  have key : ∀ path s, Param (h.set d (without (h.getD d []) "n_baseline")) a path s ↔ Param h a path s ∧ ¬ ["s2_params", "n_baseline"] <+: path := by
    intro path s
    rw [hp]
    constructor
    · rintro (⟨hh, hhd⟩ | ⟨k, v, rfl, hv, hnr, rfl⟩ | ⟨k, c, p, rfl, hc, hh⟩)
      · refine ⟨hh, ?_⟩
        rintro ⟨q, rfl⟩
        exact hhd rfl
      · obtain ⟨m1, m2⟩ := mem_without.1 hv
        refine ⟨.inside hk (.here m1 hnr), ?_⟩
        rintro ⟨q, hq⟩
        simp only [List.cons_append, List.nil_append, List.cons.injEq] at hq
        exact m2 hq.2.1.symm
      · obtain ⟨m1, m2⟩ := mem_without.1 hc
        refine ⟨.inside hk (.inside m1 hh), ?_⟩
        rintro ⟨q, hq⟩
        simp only [List.cons_append, List.nil_append, List.cons.injEq] at hq
        exact m2 hq.2.1.symm
    · rintro ⟨hh, hno⟩
      cases hh with
      | @here _ k v hv hnr =>
        refine Or.inl ⟨.here hv hnr, ?_⟩
        intro he
        simp only [List.head?_cons, Option.some.injEq] at he
        exact hnr d (huniq v (he ▸ hv))
      | @inside _ k b p _ hb hp' =>
        by_cases hkk : k = "s2_params"
        · subst hkk
          have hbd := huniq _ hb
          injection hbd with hbd
          subst hbd
          cases hp' with
          | @here _ k v hv hnr =>
            refine Or.inr (Or.inl ⟨_, _, rfl, mem_without.2 ⟨hv, ?_⟩, hnr, rfl⟩)
            rintro rfl
            exact hno ⟨[], rfl⟩
          | @inside _ k c p _ hv hp2 =>
            refine Or.inr (Or.inr ⟨_, _, _, rfl, mem_without.2 ⟨hv, ?_⟩, hp2⟩)
            rintro rfl
            exact hno ⟨p, rfl⟩
        · exact Or.inl ⟨.inside hb hp', by simpa using hkk⟩
  simp only [key]

/-- diomira with the trigger S2 and without the baseline: `KeyError`, and nothing changes. -/
theorem diomira_missing {rest : Except PyErr Unit} {h : Heap} {a s : Nat} (ht : get h a "trigger_type" = .ok (.leaf "S2")) (ht2 : ∃ t, getDict h a "trigger_params" = .ok t) (hs : getDict h a "s2_params" = .ok s)
    (hm : "n_baseline" ∉ (h.getD s []).map Prod.fst) : diomira rest h a = (h, .error .keyError) := by
  obtain ⟨t, ht2⟩ := ht2
  unfold diomira
  simp only [ht, ht2]
  cases h2 : readAll h t triggerKeys with
  | error e => simp only [readAll_error h2]
  | ok u => simp only [hs, diomiraS2, pop, get_absent hm]

theorem calls_fixed {body : Heap → Nat → Heap × Except PyErr Unit} {h : Heap} {a : Nat} {e : PyErr} (hb : body h a = (h, .error e)) : ∀ n, calls body a n h = List.replicate n (.error e)
  | 0 => rfl
  | n + 1 => by simp only [calls, hb, calls_fixed hb n, List.replicate_succ]

/-- C110. After a call of diomira with the trigger S2 that ends, any other with the same arguments is a `KeyError`. -/
theorem diomira_once {rest : Except PyErr Unit} {h h' : Heap} {a : Nat} (hg : Good h) (hs : Separate h a) (ht : get h a "trigger_type" = .ok (.leaf "S2")) (hb : diomira rest h a = (h', .ok ())) (n : Nat) :
    calls (diomira rest) a (n + 1) h = .ok () :: List.replicate n (.error .keyError) := by
  have ht2 : ∃ t, getDict h a "trigger_params" = .ok t := by
    unfold diomira at hb
    simp only [ht] at hb
    cases h1 : getDict h a "trigger_params" with
    | error e => simp [h1] at hb
    | ok t => exact ⟨t, rfl⟩
  rcases diomira_parts ht hb with ⟨_, e, he⟩ | ⟨d, h1, h2, h3⟩
  · cases he
  simp only [calls, hb]
  congr 1
  have hk := (getDict_iff hg).1 h1
  have hd : d < h.length := (good_at hg a).2.2 _ _ hk
  have hne : a ≠ d := by
    intro he
    have := hs [] ["s2_params"] d (he ▸ .here) (.step hk .here)
    cases this
  have hget : h'.getD a [] = h.getD a [] := by rw [h3, getD_set hd, if_neg hne]
  apply calls_fixed
  obtain ⟨t, ht2⟩ := ht2
  refine diomira_missing (s := d) ?_ ⟨t, ?_⟩ ?_ ?_
  · rw [get_congr hget]; exact ht
  · unfold getDict at ht2 ⊢; rw [get_congr hget]; exact ht2
  · unfold getDict at h1 ⊢; rw [get_congr hget]; exact h1
  · rw [h3, getD_set hd, if_pos rfl, without_keys]
    exact fun h => h.2 rfl

/-- Without a trigger the dictionaries stay as they are. -/
theorem diomira_none {rest : Except PyErr Unit} {h : Heap} {a : Nat} (ht : get h a "trigger_type" = .ok .none) : diomira rest h a = (h, rest) := by
  unfold diomira; simp only [ht]

/-! ### beersheba -/

/-- `deconv_params` after the first two changes. -/
def first (expand : String → String) (psf : String) (sat : Value) (o : Obj) : Obj := put (put o "psf_fname" (.leaf (expand psf))) "satellite_params" sat

/-- `deconv_params` at the end. -/
def last (expand : String → String) (psf : String) (sat : Value) (o : Obj) : Obj := without (without (without (first expand psf sat o) "q_cut") "drop_dist") "cluster_size"

theorem set_twice {h : Heap} {d : Nat} (hd : d < h.length) (o : Obj) (f : Obj → Obj) : (h.set d o).set d (f ((h.set d o).getD d [])) = h.set d (f o) := by
  rw [getD_set hd, if_pos rfl, List.set_set]

theorem beersheba_parts_call {expand : String → String} {rest : Except PyErr Unit} {h h' : Heap} {a : Nat} (hg : Good h) (hb : beersheba expand rest h a = (h', .ok ())) :
    ∃ d sat psf, getDict h a "deconv_params" = .ok d ∧ get h a "satellite_params" = .ok sat ∧ get h d "psf_fname" = .ok (.leaf psf) ∧
      checkDims (h.set d (first expand psf sat (h.getD d []))) d = .ok () ∧ h' = h.set d (last expand psf sat (h.getD d [])) ∧
      "q_cut" ∈ (h.getD d []).map Prod.fst ∧ "drop_dist" ∈ (h.getD d []).map Prod.fst ∧ deconvCall (last expand psf sat (h.getD d [])) = .ok () := by
  unfold beersheba at hb
  cases h1 : getDict h a "deconv_params" with
  | error e => simp [h1] at hb
  | ok d =>
  simp only [h1] at hb
  have hd : d < h.length := (good_at hg a).2.2 _ _ ((getDict_iff hg).1 h1)
  cases h2 : get h a "satellite_params" with
  | error e => simp [h2] at hb
  | ok sat =>
  simp only [h2] at hb
  cases h3 : get h d "psf_fname" with
  | error e => simp [h3] at hb
  | ok pv =>
  simp only [h3] at hb
  cases pv with
  | none => simp at hb
  | int z => simp at hb
  | seq l z => simp at hb
  | ref z => simp at hb
  | leaf psf =>
  have hset : setItem (setItem h d "psf_fname" (.leaf (expand psf))) d "satellite_params" sat = h.set d (first expand psf sat (h.getD d [])) := by
    unfold setItem first
    exact set_twice hd _ fun o => put o "satellite_params" sat
  simp only [hset] at hb
  cases h4 : checkDims (h.set d (first expand psf sat (h.getD d []))) d with
  | error e => simp only [h4, Prod.mk.injEq, reduceCtorEq, and_false] at hb
  | ok u =>
  simp only [h4, beershebaPops, pop] at hb
  have hget : ∀ o : Obj, (h.set d o).getD d [] = o := fun o => by rw [getD_set hd, if_pos rfl]
  cases h5 : get (h.set d (first expand psf sat (h.getD d []))) d "q_cut" with
  | error e => simp only [h5, Prod.mk.injEq, reduceCtorEq, and_false] at hb
  | ok v =>
  simp only [h5, hget, List.set_set] at hb
  cases h6 : get (h.set d (without (first expand psf sat (h.getD d [])) "q_cut")) d "drop_dist" with
  | error e => simp only [h6, Prod.mk.injEq, reduceCtorEq, and_false] at hb
  | ok w =>
  simp only [h6, hget, List.set_set, popDefault] at hb
  refine ⟨d, sat, psf, rfl, rfl, h3, h4, ?_, ?_, ?_, ?_⟩
  · split at hb
    · cases hb
    · exact (Prod.mk.inj hb).1.symm
  · by_contra hc
    rw [get_absent] at h5
    · cases h5
    · rw [hget]; unfold first
      rw [put_keys, put_keys]
      rintro (hx | hx | hx)
      · revert hx; decide
      · revert hx; decide
      · exact hc hx
  · by_contra hc
    rw [get_absent] at h6
    · cases h6
    · rw [hget, without_keys]; unfold first
      rw [put_keys, put_keys]
      rintro ⟨hx | hx | hx, _⟩
      · revert hx; decide
      · revert hx; decide
      · exact hc hx
  · split at hb
    · cases hb
    · rename_i hc
      exact hc

theorem beersheba_parts {expand : String → String} {rest : Except PyErr Unit} {h h' : Heap} {a : Nat} (hg : Good h) (hb : beersheba expand rest h a = (h', .ok ())) :
    ∃ d sat psf, getDict h a "deconv_params" = .ok d ∧ get h a "satellite_params" = .ok sat ∧ get h d "psf_fname" = .ok (.leaf psf) ∧
      checkDims (h.set d (first expand psf sat (h.getD d []))) d = .ok () ∧ h' = h.set d (last expand psf sat (h.getD d [])) ∧
      "q_cut" ∈ (h.getD d []).map Prod.fst ∧ "drop_dist" ∈ (h.getD d []).map Prod.fst := by
  obtain ⟨d, sat, psf, h1, h2, h3, h4, h5, h6, h7, _⟩ := beersheba_parts_call hg hb
  exact ⟨d, sat, psf, h1, h2, h3, h4, h5, h6, h7⟩

theorem mem_last {expand : String → String} {psf : String} {sat : Value} {o : Obj} (hn : (o.map Prod.fst).Nodup) {k : String} {v : Value} :
    (k, v) ∈ last expand psf sat o ↔ (k = "satellite_params" ∧ v = sat) ∨ (k = "psf_fname" ∧ v = .leaf (expand psf)) ∨
      ((k, v) ∈ o ∧ k ∉ ["psf_fname", "satellite_params", "q_cut", "drop_dist", "cluster_size"]) := by
  unfold last first
  rw [mem_without, mem_without, mem_without, mem_put (put_nodup _ _ hn), mem_put hn]
  by_cases h1 : k = "satellite_params"
  · subst h1; simp
  · by_cases h2 : k = "psf_fname"
    · subst h2; simp
    · simp only [h1, h2, if_false, false_and, false_or, List.mem_cons, List.not_mem_nil, or_false, not_or, not_false_eq_true, true_and, ne_eq]
      tauto

/-- C110. What beersheba stores. -/
theorem beersheba_stores {limit : Nat} {expand : String → String} {rest : Except PyErr Unit} {h h' : Heap} {a : Nat} {fin fout g : TableIO.File}
    (hi : GoodFile fin) (ho : GoodFile fout) (hno : NoConfig fout) (hnew : fin.get ("config", "beersheba") = none) (hg : Good h) (hs : Separate h a)
    (hj : job limit "beersheba" (beersheba expand rest) h a fin fout = (h', g, .ok ())) :
    Stores g "beersheba" (BeershebaStored expand h a) ∧
    ∃ d, ("deconv_params", .ref d) ∈ h.getD a [] ∧ "q_cut" ∈ (h.getD d []).map Prod.fst ∧ "drop_dist" ∈ (h.getD d []).map Prod.fst := by
  obtain ⟨d, sat, psf, h1, h2, h3, _, rfl, h5, h6⟩ := beersheba_parts hg (job_parts hj).1
  have hk := (getDict_iff hg).1 h1
  have hsat := (get_iff hg).1 h2
  have hpsf := (get_iff hg).1 h3
  refine ⟨?_, d, hk, h5, h6⟩
  have hn := (good_at hg d).1
  have hobj : GoodObj h.length (last expand psf sat (h.getD d [])) := by
    unfold last first
    refine ((((goodObj hg d).put (by decide) ?_).put (by decide) ?_).without _).without _ |>.without _
    · intro b hb; cases hb
    · intro b hb; subst hb; exact (good_at hg a).2.2 _ _ hsat
  obtain ⟨t, t1, t2⟩ := job_stores hi ho hno hnew (good_set hg hobj) hj
  refine ⟨t, t1, fun r => ?_⟩
  rw [t2]
  have hp := param_set hg hs hk (last expand psf sat (h.getD d [])) (by
    intro k c hc q
    rw [mem_last hn] at hc
    rcases hc with ⟨_, hv⟩ | ⟨_, hv⟩ | ⟨hm, _⟩
    · intro hq
      rw [← hv] at hsat
      have := hs ("satellite_params" :: q) ["deconv_params"] d (.step hsat hq) (.step hk .here)
      simp at this
    · cases hv
    · exact own_avoid hs hk hm q)
  have huniq : ∀ {k : String} {b : Nat} {v w : Value}, (k, v) ∈ h.getD b [] → (k, w) ∈ h.getD b [] → v = w := by
    intro k b v w hv hw
    rw [← lookup_iff (good_at hg b).1] at hv hw
    rw [hv] at hw
    exact Option.some.inj hw
  have key : ∀ path s, Param (h.set d (last expand psf sat (h.getD d []))) a path s ↔ BeershebaStored expand h a path s := by
    intro path s
    rw [hp]
    unfold BeershebaStored
    constructor
    · rintro (⟨hh, hhd⟩ | ⟨k, v, rfl, hv, hnr, rfl⟩ | ⟨k, c, p, rfl, hc, hh⟩)
      · refine Or.inl ⟨hh, ?_⟩
        rintro k r rfl
        exact absurd rfl hhd
      · rw [mem_last hn] at hv
        rcases hv with ⟨rfl, rfl⟩ | ⟨rfl, rfl⟩ | ⟨hm, hk2⟩
        · exact Or.inr (Or.inr ⟨[], rfl, .here hsat hnr⟩)
        · exact Or.inr (Or.inl ⟨rfl, psf, .inside hk (.here (v := .leaf psf) hpsf (by simp)), rfl⟩)
        · refine Or.inl ⟨.inside hk (.here hm hnr), ?_⟩
          intro k' r he
          simp only [List.cons.injEq, true_and] at he
          rw [← he.1]; exact hk2
      · rw [mem_last hn] at hc
        rcases hc with ⟨rfl, rfl⟩ | ⟨_, hv⟩ | ⟨hm, hk2⟩
        · exact Or.inr (Or.inr ⟨p, rfl, .inside hsat hh⟩)
        · cases hv
        · refine Or.inl ⟨.inside hk (.inside hm hh), ?_⟩
          intro k' r he
          simp only [List.cons.injEq, true_and] at he
          rw [← he.1]; exact hk2
    · rintro (⟨hh, hno⟩ | ⟨rfl, old, hh, rfl⟩ | ⟨r, rfl, hh⟩)
      · cases hh with
        | @here _ k v hv hnr =>
          refine Or.inl ⟨.here hv hnr, ?_⟩
          intro he
          simp only [List.head?_cons, Option.some.injEq] at he
          subst he
          exact hnr d (huniq hv hk)
        | @inside _ k b p _ hb hp' =>
          by_cases hkk : k = "deconv_params"
          · subst hkk
            have hbd := huniq hb hk
            injection hbd with hbd
            subst hbd
            cases hp' with
            | @here _ k v hv hnr => exact Or.inr (Or.inl ⟨_, _, rfl, (mem_last hn).2 (Or.inr (Or.inr ⟨hv, hno _ _ rfl⟩)), hnr, rfl⟩)
            | @inside _ k c p _ hv hp2 => exact Or.inr (Or.inr ⟨_, _, _, rfl, (mem_last hn).2 (Or.inr (Or.inr ⟨hv, hno _ _ rfl⟩)), hp2⟩)
          · exact Or.inl ⟨.inside hb hp', by simpa using hkk⟩
      · refine Or.inr (Or.inl ⟨_, .leaf (expand psf), rfl, (mem_last hn).2 (Or.inr (Or.inl ⟨rfl, rfl⟩)), by simp, ?_⟩)
        cases hh with
        | inside hb hp' =>
          have hbd := huniq hb hk
          injection hbd with hbd
          subst hbd
          cases hp' with
          | here hv hnr => rw [huniq hv hpsf]; rfl
          | inside hv hp2 => cases hp2
      · cases hh with
        | here hv hnr =>
          have := huniq hv hsat
          subst this
          exact Or.inr (Or.inl ⟨_, _, rfl, (mem_last hn).2 (Or.inl ⟨rfl, rfl⟩), hnr, rfl⟩)
        | inside hv hp' =>
          have := huniq hv hsat
          exact Or.inr (Or.inr ⟨_, _, _, rfl, (mem_last hn).2 (Or.inl ⟨rfl, this⟩), hp'⟩)
  simp only [key]

theorem checkDims_congr {h k : Heap} {d : Nat} (hkeys : ∀ key ∈ ["n_dim", "sample_width", "bin_size", "diffusion"], get h d key = get k d key) : checkDims h d = checkDims k d := by
  have e1 := hkeys "n_dim" (by simp)
  have e2 := hkeys "sample_width" (by simp)
  have e3 := hkeys "bin_size" (by simp)
  have e4 := hkeys "diffusion" (by simp)
  unfold checkDims checkLength
  rw [e1, e2, e3, e4]

theorem checkLength_ok {h : Heap} {d : Nat} {n : Int} {p : String} (hc : checkLength h d n p = .ok ()) : ∃ (m : Nat) (t : String), (m : Int) = n ∧ get h d p = .ok (.seq m t) := by
  unfold checkLength at hc
  cases hp : get h d p with
  | error e => simp [hp] at hc
  | ok v =>
    cases v with
    | seq m t =>
      simp only [hp] at hc
      by_cases hm : (m : Int) = n
      · exact ⟨m, t, hm, rfl⟩
      · simp [hm] at hc
    | _ => simp [hp] at hc

theorem checkDims_ok {h : Heap} {d : Nat} (hc : checkDims h d = .ok ()) : ∃ n : Int, get h d "n_dim" = .ok (.int n) ∧ n ≤ 2 ∧
    ∀ p ∈ ["sample_width", "bin_size", "diffusion"], ∃ (m : Nat) (t : String), (m : Int) = n ∧ get h d p = .ok (.seq m t) := by
  unfold checkDims at hc
  cases hn : get h d "n_dim" with
  | error e => simp [hn] at hc
  | ok v =>
    cases v with
    | int n =>
      simp only [hn] at hc
      cases c1 : checkLength h d n "sample_width" with
      | error e => simp [c1] at hc
      | ok u =>
        cases c2 : checkLength h d n "bin_size" with
        | error e => simp [c1, c2] at hc
        | ok u =>
          cases c3 : checkLength h d n "diffusion" with
          | error e => simp [c1, c2, c3] at hc
          | ok u =>
            simp only [c1, c2, c3] at hc
            by_cases h2 : 2 < n
            · simp [h2] at hc
            · refine ⟨n, rfl, not_lt.1 h2, ?_⟩
              intro p hp
              simp only [List.mem_cons, List.not_mem_nil, or_false] at hp
              rcases hp with rfl | rfl | rfl
              · exact checkLength_ok c1
              · exact checkLength_ok c2
              · exact checkLength_ok c3
    | _ => simp [hn] at hc

/-- C110. A call of beersheba ends only for one or two dimensions (or none), with as many values for the width of the samples, the size of the bins and the diffusion. -/
theorem beersheba_dims {expand : String → String} {rest : Except PyErr Unit} {h h' : Heap} {a : Nat} (hg : Good h) (hb : beersheba expand rest h a = (h', .ok ())) :
    ∃ (d : Nat) (n : Int), ("deconv_params", .ref d) ∈ h.getD a [] ∧ ("n_dim", .int n) ∈ h.getD d [] ∧ n ≤ 2 ∧
      ∀ p ∈ ["sample_width", "bin_size", "diffusion"], ∃ (m : Nat) (t : String), (m : Int) = n ∧ (p, .seq m t) ∈ h.getD d [] := by
  obtain ⟨d, sat, psf, h1, h2, h3, h4, rfl, h5, h6⟩ := beersheba_parts hg hb
  have hk := (getDict_iff hg).1 h1
  have hd : d < h.length := (good_at hg a).2.2 _ _ hk
  have hn := (good_at hg d).1
  have hf : ((first expand psf sat (h.getD d [])).map Prod.fst).Nodup := put_nodup _ _ (put_nodup _ _ hn)
  have back : ∀ key v, key ≠ "satellite_params" → key ≠ "psf_fname" → get (h.set d (first expand psf sat (h.getD d []))) d key = .ok v → (key, v) ∈ h.getD d [] := by
    intro key v k1 k2 hv
    unfold get at hv
    rw [getD_set hd, if_pos rfl] at hv
    cases hl : (first expand psf sat (h.getD d [])).lookup key with
    | none => rw [hl] at hv; cases hv
    | some w =>
      rw [hl] at hv
      cases hv
      have := (lookup_iff hf).1 hl
      unfold first at this
      rwa [mem_put (put_nodup _ _ hn), if_neg k1, mem_put hn, if_neg k2] at this
  obtain ⟨n, c1, c2, c3⟩ := checkDims_ok h4
  refine ⟨d, n, hk, back _ _ (by decide) (by decide) c1, c2, fun p hp => ?_⟩
  obtain ⟨m, t, hm, hv⟩ := c3 p hp
  exact ⟨m, t, hm, back p _ (by rintro rfl; revert hp; decide) (by rintro rfl; revert hp; decide) hv⟩

/-- C110. A call of beersheba ends only if `deconv_params` has the arguments that the deconvolution requires, and no key that is neither an argument of it nor one that beersheba takes out or puts itself. -/
theorem beersheba_arguments {expand : String → String} {rest : Except PyErr Unit} {h h' : Heap} {a : Nat} (hg : Good h) (hb : beersheba expand rest h a = (h', .ok ())) :
    ∃ d : Nat, ("deconv_params", .ref d) ∈ h.getD a [] ∧ "satellite_params" ∈ (h.getD a []).map Prod.fst ∧
      (∀ k ∈ ["q_cut", "drop_dist", "psf_fname", "e_cut", "n_iterations", "iteration_tol", "sample_width", "bin_size"], k ∈ (h.getD d []).map Prod.fst) ∧
      ∀ k ∈ (h.getD d []).map Prod.fst, k ∈ ["q_cut", "drop_dist", "cluster_size", "psf_fname", "e_cut", "n_iterations", "iteration_tol", "sample_width", "bin_size",
        "satellite_params", "diffusion", "energy_type", "deconv_mode", "n_dim", "cut_type", "inter_method", "n_iterations_g"] := by
  obtain ⟨d, sat, psf, h1, h2, h3, _, _, h5, h6, h7⟩ := beersheba_parts_call hg hb
  refine ⟨d, (getDict_iff hg).1 h1, ?_, ?_, ?_⟩
  · by_contra hc
    rw [get_absent hc] at h2
    cases h2
  · unfold deconvCall at h7
    split at h7
    · rename_i hc
      have psf_in : "psf_fname" ∈ (h.getD d []).map Prod.fst := by
        by_contra hc
        rw [get_absent hc] at h3
        cases h3
      intro k hk
      simp only [List.mem_cons, List.not_mem_nil, or_false] at hk
      have key : ∀ k, k ∈ deconvRequired → k ≠ "psf_fname" → k ≠ "satellite_params" → k ∈ (h.getD d []).map Prod.fst := by
        intro k hk k1 k2
        have := hc.1 k hk
        unfold last first at this
        rw [without_keys, without_keys, without_keys, put_keys, put_keys] at this
        rcases this.1.1.1 with hx | hx | hx
        · exact absurd hx k2
        · exact absurd hx k1
        · exact hx
      rcases hk with rfl | rfl | rfl | rfl | rfl | rfl | rfl | rfl
      · exact h5
      · exact h6
      · exact psf_in
      all_goals exact key _ (by decide) (by decide) (by decide)
    · cases h7
  · unfold deconvCall at h7
    split at h7
    · rename_i hc
      intro k hk
      by_cases k1 : k ∈ ["q_cut", "drop_dist", "cluster_size"]
      · simp only [List.mem_cons, List.not_mem_nil, or_false] at k1 ⊢
        rcases k1 with rfl | rfl | rfl <;> simp
      · have k2 := hc.2 k (by
          unfold last first
          rw [without_keys, without_keys, without_keys, put_keys, put_keys]
          simp only [List.mem_cons, List.not_mem_nil, or_false, not_or] at k1
          exact ⟨⟨⟨Or.inr (Or.inr hk), k1.1⟩, k1.2.1⟩, k1.2.2⟩)
        unfold deconvRequired deconvOptional at k2
        simp only [List.mem_cons, List.not_mem_nil, or_false] at k2 ⊢
        tauto
    · cases h7

/-- C110. After a call of beersheba that ends, any other with the same arguments is a `KeyError`. -/
theorem beersheba_once {expand : String → String} {rest : Except PyErr Unit} {h h' : Heap} {a : Nat} (hg : Good h) (hs : Separate h a) (hb : beersheba expand rest h a = (h', .ok ())) (n : Nat) :
    calls (beersheba expand rest) a (n + 1) h = .ok () :: List.replicate n (.error .keyError) := by
  obtain ⟨d, sat, psf, h1, h2, h3, h4, rfl, h5, h6⟩ := beersheba_parts hg hb
  have hk := (getDict_iff hg).1 h1
  have hd : d < h.length := (good_at hg a).2.2 _ _ hk
  have hn := (good_at hg d).1
  have hne : a ≠ d := by
    intro he
    have := hs [] ["deconv_params"] d (he ▸ .here) (.step hk .here)
    cases this
  simp only [calls, hb]
  congr 1
  -- any state of the dictionary after the first call
  have step : ∀ (m : Nat) (p : String) (o : Obj), (o.map Prod.fst).Nodup → "q_cut" ∉ o.map Prod.fst → ("psf_fname", Value.leaf p) ∈ o →
      checkDims (h.set d o) d = .ok () → calls (beersheba expand rest) a m (h.set d o) = List.replicate m (.error .keyError) := by
    intro m
    induction m with
    | zero => intros; rfl
    | succ m ih =>
      intro p o hno hq hp hc
      have hget : (h.set d o).getD a [] = h.getD a [] := by rw [getD_set hd, if_neg hne]
      have hgetd : ∀ o : Obj, (h.set d o).getD d [] = o := fun o => by rw [getD_set hd, if_pos rfl]
      have hput : ((first expand p sat o).map Prod.fst).Nodup := put_nodup _ _ (put_nodup _ _ hno)
      have hcd : checkDims (h.set d (first expand p sat o)) d = .ok () := by
        rw [← hc]
        apply checkDims_congr
        intro key hkey
        unfold get
        rw [hgetd, hgetd]
        have : (first expand p sat o).lookup key = o.lookup key := by
          have hk1 : key ≠ "satellite_params" := by rintro rfl; revert hkey; decide
          have hk2 : key ≠ "psf_fname" := by rintro rfl; revert hkey; decide
          apply Option.ext
          intro v
          rw [lookup_iff hput, lookup_iff hno]
          unfold first
          rw [mem_put (put_nodup _ _ hno), if_neg hk1, mem_put hno, if_neg hk2]
        rw [this]
      have hbody : beersheba expand rest (h.set d o) a = (h.set d (first expand p sat o), .error .keyError) := by
        unfold beersheba
        have e1 : getDict (h.set d o) a "deconv_params" = .ok d := by unfold getDict at h1 ⊢; rw [get_congr hget]; exact h1
        have e2 : get (h.set d o) a "satellite_params" = .ok sat := by rw [get_congr hget]; exact h2
        have e3 : get (h.set d o) d "psf_fname" = .ok (.leaf p) := by
          unfold get; rw [hgetd, (lookup_iff hno).2 hp]
        have hset : setItem (setItem (h.set d o) d "psf_fname" (.leaf (expand p))) d "satellite_params" sat = h.set d (first expand p sat o) := by
          unfold setItem first
          simp only [hgetd, List.set_set]
        simp only [e1, e2, e3, hset, hcd, beershebaPops, pop]
        rw [get_absent]
        rw [hgetd]; unfold first
        rw [put_keys, put_keys]
        rintro (hx | hx | hx)
        · revert hx; decide
        · revert hx; decide
        · exact hq hx
      simp only [calls, hbody, List.replicate_succ]
      congr 1
      refine ih (expand p) _ hput ?_ ?_ hcd
      · unfold first
        rw [put_keys, put_keys]
        rintro (hx | hx | hx)
        · revert hx; decide
        · revert hx; decide
        · exact hq hx
      · unfold first
        rw [mem_put (put_nodup _ _ hno), if_neg (by decide), mem_put hno, if_pos rfl]
  refine step n (expand psf) _ ?_ ?_ ?_ ?_
  · unfold last first
    exact without_nodup _ (without_nodup _ (without_nodup _ (put_nodup _ _ (put_nodup _ _ hn))))
  · unfold last
    rw [without_keys, without_keys, without_keys]
    exact fun hx => hx.1.1.2 rfl
  · rw [mem_last hn]; exact Or.inr (Or.inl ⟨rfl, rfl⟩)
  · rw [← h4]
    apply checkDims_congr
    intro key hkey
    unfold get
    rw [getD_set hd, if_pos rfl, getD_set hd, if_pos rfl]
    have hf : ((first expand psf sat (h.getD d [])).map Prod.fst).Nodup := put_nodup _ _ (put_nodup _ _ hn)
    have : (last expand psf sat (h.getD d [])).lookup key = (first expand psf sat (h.getD d [])).lookup key := by
      apply Option.ext
      intro v
      rw [lookup_iff hf, lookup_iff (by unfold last; exact without_nodup _ (without_nodup _ (without_nodup _ hf)))]
      unfold last
      rw [mem_without, mem_without, mem_without]
      constructor
      · rintro ⟨⟨⟨hx, _⟩, _⟩, _⟩; exact hx
      · intro hx
        refine ⟨⟨⟨hx, ?_⟩, ?_⟩, ?_⟩ <;> (rintro rfl; revert hkey; decide)
    rw [this]

/-! ### Examples -/

/-- The configuration of a diomira. -/
def exDiomira : Heap :=
  [[("trigger_type", .leaf "S2"), ("trigger_params", .ref 1), ("s2_params", .ref 2)],
   [("tr_channels", .seq 2 "[18, 19]"), ("min_number_channels", .int 2), ("data_mc_ratio", .int 1), ("min_height", .int 0), ("max_height", .int 1000), ("min_charge", .int 0),
    ("max_charge", .int 1000), ("min_width", .int 0), ("max_width", .int 1000)],
   [("n_baseline", .int 500), ("s2_tmin", .int 0), ("s2_tmax", .int 640), ("s2_stride", .int 4), ("s2_lmin", .int 80), ("s2_lmax", .int 200), ("s2_rebin_stride", .int 40)]]

/-- The configuration of a beersheba. -/
def exBeersheba : Heap :=
  [[("threshold", .int 5), ("deconv_params", .ref 1), ("satellite_params", .ref 2)],
   [("q_cut", .int 10), ("drop_dist", .seq 2 "[16., 16.]"), ("psf_fname", .leaf "$ICDIR/psf.h5"), ("e_cut", .leaf "1e-6"), ("n_iterations", .int 10), ("iteration_tol", .leaf "0.01"),
    ("sample_width", .seq 2 "[15.55, 15.55]"), ("bin_size", .seq 2 "[1., 1.]"), ("diffusion", .seq 2 "[1., 1.]"), ("n_dim", .int 2)],
   [("satellite_max_size", .int 3)]]

/-- The configuration of a detsim. -/
def exDetsim : Heap :=
  [[("rate", .leaf "0.5"), ("buffer_params", .ref 1), ("physics_params", .ref 2)],
   [("length", .int 1600), ("max_time", .int 10000)], [("ws", .int 60), ("el_drift_velocity", .leaf "2.5"), ("lifetime", .leaf "7.8")]]

def goodB (h : Heap) : Bool :=
  h.all fun o => decide (o.map Prod.fst).Nodup && (o.all fun x => decide (x.1 ≠ "" ∧ '.' ∉ x.1.toList)) &&
    o.all fun x => match x.2 with | .ref b => decide (b < h.length) | _ => true

theorem good_of_bool {h : Heap} (hb : goodB h = true) : Good h := by
  simp only [goodB, List.all_eq_true, Bool.and_eq_true, decide_eq_true_eq] at hb
  refine ⟨fun o ho => ⟨(hb o ho).1.1, ?_⟩, ?_⟩
  · intro k hk
    obtain ⟨x, hx, rfl⟩ := List.mem_map.1 hk
    exact (hb o ho).1.2 x hx
  · intro o ho k b hk
    simpa using (hb o ho).2 _ hk

/-- A root whose dictionaries have no others inside is separate if they are different. -/
theorem separate_flat {h : Heap} {a : Nat} (hg : Good h) (hroot : ∀ k k' b, (k, Value.ref b) ∈ h.getD a [] → (k', Value.ref b) ∈ h.getD a [] → k = k')
    (hflat : ∀ k b, (k, Value.ref b) ∈ h.getD a [] → b ≠ a ∧ ∀ k' c, (k', Value.ref c) ∉ h.getD b []) : Separate h a := by
  have inv : ∀ p b, Leads h a p b → (p = [] ∧ b = a) ∨ ∃ k, p = [k] ∧ (k, Value.ref b) ∈ h.getD a [] := by
    intro p b hl
    cases hl with
    | here => exact Or.inl ⟨rfl, rfl⟩
    | step hk hl =>
      cases hl with
      | here => exact Or.inr ⟨_, rfl, hk⟩
      | step hk2 _ => exact absurd hk2 ((hflat _ _ hk).2 _ _)
  intro p q b hp hq
  rcases inv p b hp with ⟨rfl, rfl⟩ | ⟨k, rfl, hk⟩
  · rcases inv q b hq with ⟨rfl, _⟩ | ⟨k, rfl, hk⟩
    · rfl
    · exact absurd rfl (hflat _ _ hk).1
  · rcases inv q b hq with ⟨rfl, rfl⟩ | ⟨k', rfl, hk'⟩
    · exact absurd rfl (hflat _ _ hk).1
    · rw [hroot k k' b hk hk']

example : Good exDiomira := good_of_bool (by decide)
example : Good exBeersheba := good_of_bool (by decide)
example : Good exDetsim := good_of_bool (by decide)
theorem exDiomira_separate : Separate exDiomira 0 := by
  refine separate_flat (good_of_bool (by decide)) ?_ ?_
  · intro k k' b h1 h2
    simp [exDiomira] at h1 h2
    rcases h1 with ⟨rfl, rfl⟩ | ⟨rfl, rfl⟩ <;> rcases h2 with ⟨rfl, h⟩ | ⟨rfl, h⟩ <;> first | rfl | cases h
  · intro k b h1
    simp [exDiomira] at h1
    rcases h1 with ⟨rfl, rfl⟩ | ⟨rfl, rfl⟩ <;> simp [exDiomira]

theorem exBeersheba_separate : Separate exBeersheba 0 := by
  refine separate_flat (good_of_bool (by decide)) ?_ ?_
  · intro k k' b h1 h2
    simp [exBeersheba] at h1 h2
    rcases h1 with ⟨rfl, rfl⟩ | ⟨rfl, rfl⟩ <;> rcases h2 with ⟨rfl, h⟩ | ⟨rfl, h⟩ <;> first | rfl | cases h
  · intro k b h1
    simp [exBeersheba] at h1
    rcases h1 with ⟨rfl, rfl⟩ | ⟨rfl, rfl⟩ <;> simp [exBeersheba]

/-- The text of the keys of the rows of a table of configuration. -/
def names (f : TableIO.File) (city : String) : List TableIO.Cell := ((f.get ("config", city)).map fun t => t.rows.filterMap List.head?).getD []

/-- The baseline of diomira is lost; the second call fails. -/
example : get exDiomira 0 "trigger_type" = .ok (.leaf "S2") := by decide
example : (job 10 "diomira" (diomira (.ok ())) exDiomira 0 [] []).2.2 = .ok () ∧
    TableIO.Cell.text "s2_params.n_baseline" ∉ names (job 10 "diomira" (diomira (.ok ())) exDiomira 0 [] []).2.1 "diomira" ∧
    TableIO.Cell.text "s2_params.s2_tmin" ∈ names (job 10 "diomira" (diomira (.ok ())) exDiomira 0 [] []).2.1 "diomira" := by decide +kernel
example : calls (diomira (.ok ())) 0 3 exDiomira = [.ok (), .error .keyError, .error .keyError] := by decide +kernel

/-- beersheba loses the cut of the charge and has the satellites twice. -/
example : (job 10 "beersheba" (beersheba (fun s => s ++ "!") (.ok ())) exBeersheba 0 [] []).2.2 = .ok () ∧
    names (job 10 "beersheba" (beersheba (fun s => s ++ "!") (.ok ())) exBeersheba 0 [] []).2.1 "beersheba" =
      ["threshold", "deconv_params.psf_fname", "deconv_params.e_cut", "deconv_params.n_iterations", "deconv_params.iteration_tol", "deconv_params.sample_width", "deconv_params.bin_size",
       "deconv_params.diffusion", "deconv_params.n_dim", "deconv_params.satellite_params.satellite_max_size", "satellite_params.satellite_max_size"].map TableIO.Cell.text := by decide +kernel
example : calls (beersheba id (.ok ())) 0 3 exBeersheba = [.ok (), .error .keyError, .error .keyError] := by decide +kernel

/-- detsim stores everything and can be called again. -/
example : (job 10 "detsim" (detsim (fun m _ => m) (.ok ())) exDetsim 0 [] []).2.2 = .ok () ∧
    names (job 10 "detsim" (detsim (fun m _ => m) (.ok ())) exDetsim 0 [] []).2.1 "detsim" =
      ["rate", "buffer_params.length", "buffer_params.max_time", "physics_params.ws", "physics_params.el_drift_velocity", "physics_params.lifetime"].map TableIO.Cell.text := by decide +kernel
example : calls (detsim (fun m _ => m) (.ok ())) 0 3 exDetsim = [.ok (), .ok (), .ok ()] := by decide +kernel
example : getDict exDetsim 0 "buffer_params" = .ok 1 ∧ getDict exDetsim 0 "physics_params" = .ok 2 := by decide
example : (beersheba id (.ok ()) exBeersheba 0).2 = .ok () ∧ (diomira (.ok ()) exDiomira 0).2 = .ok () := by decide +kernel
example : (job 10 "irene" (plain (.ok ())) exDetsim 0 [] []).2.2 = .ok () := by decide +kernel
example : GoodFile [] ∧ NoConfig [] := ⟨⟨by simp, by simp [TableIO.File.get]⟩, by simp [NoConfig, TableIO.File.get]⟩

end Verif.CityArgs
