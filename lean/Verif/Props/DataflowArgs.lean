import Verif.Props.DataflowPipe
import Verif.Model.DataflowArgs
import Verif.Lemmas.DataflowFork
/-!
# C06: args/out route values in dictionaries and nothing else
-/
namespace Verif.Dataflow
variable {V : Type}

theorem getArgs_ok {d : Item V} {ks : List String} {vs : List V} :
    getArgs d ks = .ok vs ↔ ks.map d = vs.map some := by
  induction ks generalizing vs with
  | nil => simp [getArgs]
  | cons k ks ih =>
    simp only [getArgs]
    cases h : d k with
    | none =>
      simp only [List.map_cons, h]
      constructor
      · simp
      · cases vs <;> simp
    | some v =>
      cases h2 : getArgs d ks with
      | error e =>
        simp only [List.map_cons, h]
        constructor
        · simp
        · cases vs with
          | nil => simp
          | cons w ws =>
            simp only [List.map_cons, List.cons.injEq]
            rintro ⟨_, h3⟩
            rw [← ih, h2] at h3; cases h3
      | ok us =>
        have := ih.1 h2
        cases vs with
        | nil => simp
        | cons w ws =>
          simp only [List.map_cons, List.cons.injEq, h, Except.ok.injEq, Option.some.injEq, this]
          constructor
          · rintro ⟨rfl, rfl⟩; simp
          · rintro ⟨rfl, h3⟩
            refine ⟨rfl, ?_⟩
            exact (List.map_inj_right (fun _ _ h => Option.some.inj h)).1 h3

theorem getArgs_error {d : Item V} {ks : List String} (h : ∃ k ∈ ks, d k = none) : getArgs d ks = .error keyError := by
  induction ks with
  | nil => simp at h
  | cons k ks ih =>
    simp only [getArgs]
    cases hk : d k with
    | none => rfl
    | some v =>
      have : ∃ k ∈ ks, d k = none := by
        obtain ⟨k', hk', hd⟩ := h
        rcases List.mem_cons.1 hk' with rfl | h'
        · rw [hk] at hd; cases hd
        · exact ⟨k', h', hd⟩
      simp [ih this]

theorem assign_other {d : Item V} {ks : List String} {vs : List V} {k : String} (h : k ∉ ks) :
    assign d ks vs k = d k := by
  induction ks generalizing d vs with
  | nil => cases vs <;> rfl
  | cons k' ks ih =>
    simp only [List.mem_cons, not_or] at h
    cases vs with
    | nil => rfl
    | cons v vs => simp [assign, ih h.2, Item.set, h.1]

theorem assign_at {d : Item V} {ks : List String} (hd : ks.Nodup) {vs : List V} {j : Nat} {k : String} {v : V}
    (hk : ks[j]? = some k) (hv : vs[j]? = some v) : assign d ks vs k = some v := by
  induction ks generalizing d vs j with
  | nil => simp at hk
  | cons k' ks ih =>
    cases vs with
    | nil => simp at hv
    | cons v' vs =>
      simp only [List.nodup_cons] at hd
      cases j with
      | zero =>
        simp only [List.getElem?_cons_zero, Option.some.injEq] at hk hv
        subst hk hv
        rw [assign, assign_other hd.1]; simp [Item.set]
      | succ j => rw [assign]; exact ih hd.2 (by simpa using hk) (by simpa using hv)

/-- **C06** `map(op, args=as, out=o)` with one output name: when the item has all the keys `as`, `op` is
called with their values in that order; its result is stored under `o` and nothing else changes. -/
theorem map_one_out (unpack : V → Option (List V)) (op : List V → Except Exc V) (as : List String) (o : String)
    (d : Item V) (vs : List V) (h : as.map d = vs.map some) (r : V) (hr : op vs = .ok r) :
    ∃ d', routeMap unpack op (.many as) (.one o) d = .ok d' ∧ d' o = some r ∧ ∀ k, k ≠ o → d' k = d k := by
  refine ⟨_, by simp [routeMap, Names.toList, getArgs_ok.2 h, hr]; rfl, ?_, ?_⟩
  · simp [assign, Item.set]
  · intro k hk; simp [assign, Item.set, hk]

/-- **C06** A missing key is a KeyError and `op` is not called (whatever `op` is). -/
theorem map_missing_key (unpack : V → Option (List V)) (op : List V → Except Exc V) (as : List String) (o : Names)
    (d : Item V) (h : ∃ k ∈ as, d k = none) :
    routeMap unpack op (.many as) o d = .error keyError := by
  simp [routeMap, Names.toList, getArgs_error h]

/-- **C06** Several (distinct) output names, and as many results: result number `j` is stored under
name number `j`, nothing else changes. -/
theorem map_many_out (unpack : V → Option (List V)) (op : List V → Except Exc V) (as os : List String)
    (ho : os.Nodup) (d : Item V) (vs : List V) (h : as.map d = vs.map some) (r : V) (hr : op vs = .ok r)
    (rs : List V) (hu : unpack r = some rs) (hl : rs.length = os.length) :
    ∃ d', routeMap unpack op (.many as) (.many os) d = .ok d' ∧
      (∀ (j : Nat) (o : String), os[j]? = some o → d' o = rs[j]?) ∧ ∀ k, k ∉ os → d' k = d k := by
  refine ⟨_, by simp [routeMap, Names.toList, getArgs_ok.2 h, hr, hu]; rfl, ?_, ?_⟩
  · intro j o hj
    have hjl : j < rs.length := by rw [hl]; exact (List.getElem?_eq_some_iff.1 hj).1
    rw [List.getElem?_eq_getElem hjl]
    exact assign_at ho hj (List.getElem?_eq_getElem hjl)
  · intro k hk; exact assign_other hk

/-- **C06, not as one would expect**: when `op` returns fewer values than there are output names the
remaining names are silently left as they were (and surplus values are silently dropped), because of
`zip`: no exception is raised. -/
theorem map_short_result_silent :
    ∃ (d : Item Nat) (d' : Item Nat),
      routeMap (fun r => some [r]) (fun _ => .ok 7) (.many ["x"]) (.many ["a", "b"]) d = .ok d' ∧
      d' "a" = some 7 ∧ d' "b" = none ∧ d "b" = none := by
  exact ⟨fun k => if k = "x" then some 1 else none, _, rfl, by decide, by decide, by decide⟩

/-- **C06** `item=k` is `args=k, out=k`, and excludes `args` and `out`. -/
theorem item_means_both (i : Nat) (unpack : V → Option (List V)) (opItem : Item V → Except Exc (Item V))
    (op : List V → Except Exc V) (k : String) :
    mkMap i unpack opItem op .none .none (.one k) = mkMap i unpack opItem op (.one k) (.one k) .none ∧
    ∀ args out, (∃ msg, mkMap i unpack opItem op args out (.one k) = .error msg) ↔ (args ≠ .none ∨ out ≠ .none) := by
  refine ⟨by simp [mkMap, resolveItem], ?_⟩
  intro args out
  by_cases h : args = .none ∧ out = .none
  · simp [mkMap, resolveItem, h.1, h.2]
  · have : args ≠ .none ∨ out ≠ .none := by
      by_cases h1 : args = .none
      · exact Or.inr fun h2 => h ⟨h1, h2⟩
      · exact Or.inl h1
    simp only [mkMap, resolveItem, if_pos this]
    exact ⟨fun _ => this, fun _ => ⟨_, rfl⟩⟩

/-- An item after a function of the values of some keys has given its result to one key. -/
def Routed (as : List String) (o : String) (op : List V → Except Exc V) (d d' : Item V) : Prop :=
  ∃ vs r, as.map d = vs.map some ∧ op vs = .ok r ∧ d' o = some r ∧ ∀ k, k ≠ o → d' k = d k

theorem routed_unique {as : List String} {o : String} {op : List V → Except Exc V} {d d' d'' : Item V} (h : Routed as o op d d') (h' : Routed as o op d d'') : d' = d'' := by
  obtain ⟨vs, r, h1, h2, h3, h4⟩ := h
  obtain ⟨ws, q, g1, g2, g3, g4⟩ := h'
  have : vs = ws := by
    have := h1.symm.trans g1
    exact List.map_inj_right (fun _ _ h => Option.some.inj h) |>.1 this
  subst this
  have : r = q := by rw [h2] at g2; exact Except.ok.inj g2
  subst this
  funext k
  by_cases hk : k = o
  · rw [hk, h3, g3]
  · rw [h4 k hk, g4 k hk]

theorem pushFrom_routed (i c : Nat) (unpack : V → Option (List V)) (op : List V → Except Exc V) (as : List String) (o : String) :
    ∀ {xs ys : List (Item V)}, List.Forall₂ (Routed as o op) xs ys →
      (pushFrom (.mapIn i (routeMap unpack op (.many as) (.one o)) (.sink c fun _ => none)) (.mapIn .sink) xs).trace = ys.map (Ev.recv c) ++ [.closed c, .closed i] ∧
      (pushFrom (.mapIn i (routeMap unpack op (.many as) (.one o)) (.sink c fun _ => none)) (.mapIn .sink) xs).exc = none := by
  intro xs ys h
  induction h with
  | nil => exact ⟨rfl, rfl⟩
  | @cons x y xs ys hxy _ ih =>
    obtain ⟨vs, r, h1, h2, h3, h4⟩ := hxy
    obtain ⟨d', hd, g3, g4⟩ := map_one_out unpack op as o x vs h1 r h2
    have he : d' = y := routed_unique ⟨vs, r, h1, h2, g3, g4⟩ ⟨vs, r, h1, h2, h3, h4⟩
    subst he
    have hs : send (.mapIn i (routeMap unpack op (.many as) (.one o)) (.sink c fun _ => none)) (.mapIn .sink) x = ⟨d', [.recv c d'], .ok (.mapIn .sink)⟩ := by
      simp only [send, hd]
    constructor
    · simp only [pushFrom, hs, ih.1, List.map_cons, List.cons_append, List.nil_append]
    · simp only [pushFrom, hs, ih.2]

/-- **C06** A pipe with `map(op, args=as, out=o)` hands to the next component each item with the result of `op`, of the values of the keys `as`, under the key `o`. -/
theorem map_args_run (i c : Nat) (unpack : V → Option (List V)) (opItem : Item V → Except Exc (Item V)) (op : List V → Except Exc V) (as : List String) (o : String) :
    ∃ m, mkMap i unpack opItem op (.many as) (.one o) .none = .ok m ∧
      ∀ xs ys, List.Forall₂ (Routed as o op) xs ys →
        received c (push xs (m (.sink c fun _ => none))).trace = ys ∧ (push xs (m (.sink c fun _ => none))).exc = none := by
  refine ⟨_, rfl, fun xs ys h => ?_⟩
  obtain ⟨h1, h2⟩ := pushFrom_routed i c unpack op as o h
  refine ⟨?_, h2⟩
  unfold push
  rw [show init (Net.mapIn i (routeMap unpack op (.many as) (.one o)) (.sink c fun _ => none)) = .mapIn .sink from rfl, h1]
  have hr : ∀ zs : List (Item V), received c (zs.map (Ev.recv c) ++ [.closed c, .closed i]) = zs := by
    intro zs
    induction zs with
    | nil => rfl
    | cons z zs ih =>
      have : received c ((z :: zs).map (Ev.recv c) ++ [.closed c, .closed i]) = z :: received c (zs.map (Ev.recv c) ++ [.closed c, .closed i]) := by
        simp [received]
      rw [this, ih]
  exact hr ys

/-- **C06** Without names `map(op)` hands to the next component the result of `op` for the item, and does not change the item. -/
theorem map_plain_run (i : Nat) (unpack : V → Option (List V)) (f : Item V → Item V) (op : List V → Except Exc V) (t : Net (Item V)) (xs : List (Item V)) :
    ∃ m, mkMap i unpack (fun d => .ok (f d)) op .none .none .none = .ok m ∧ push xs (m t) = (push (xs.map f) t).andClosed i :=
  ⟨_, rfl, push_map i f t xs⟩

example : ∃ m, mkMap 1 (fun _ => none) (fun d => .ok d) (fun vs => .ok vs.sum) (.many ["a", "b"]) (.one "c") .none = .ok m ∧
    (received 2 (push [fun k => if k = "a" then some 3 else if k = "b" then some 4 else none] (m (.sink 2 fun _ => none))).trace).map (fun d => d "c") = [some 7] :=
  ⟨_, rfl, by decide⟩

example : Routed ["a", "b"] "c" (fun vs => .ok vs.sum) (fun k => if k = "a" then some 3 else if k = "b" then some 4 else none)
    (fun k => if k = "c" then some 7 else if k = "a" then some 3 else if k = "b" then some 4 else none) :=
  ⟨[3, 4], 7, by decide, rfl, by decide, fun k hk => if_neg hk⟩

/-! ### Aliasing between the targets of a fork -/

variable {α : Type}

theorem received_fork_inPlace (i a m b c : Nat) (f : α → α) (hn : [i, a, m, b, c].Nodup) (xs : List α) :
    let n : Net α := .fork i (.cons (.sink a fun _ => none) (.cons (.mapIn m (fun x => .ok (f x)) (.sink b fun _ => none))
      (.cons (.sink c fun _ => none) .nil)))
    received a (push xs n).trace = xs ∧ received b (push xs n).trace = xs.map f ∧
    received c (push xs n).trace = xs.map f := by
  simp only [List.nodup_cons, List.mem_cons, not_or] at hn
  obtain ⟨⟨h1, h2, h3, h4, -⟩, ⟨h5, h6, h7, -⟩, ⟨h8, h9, -⟩, ⟨h10, -⟩, -⟩ := hn
  have e : ∀ {p q : Nat}, p ≠ q → q ≠ p := fun h => h.symm
  intro n
  have key : ∀ s : St n, s = .fork (.cons .sink (.cons (.mapIn .sink) (.cons .sink .nil))) →
      received a (pushFrom n s xs).trace = xs ∧ received b (pushFrom n s xs).trace = xs.map f ∧
      received c (pushFrom n s xs).trace = xs.map f := by
    induction xs with
    | nil =>
      rintro s rfl
      simp [pushFrom, close, closes, received, n]
    | cons x xs ih =>
      rintro s rfl
      have := ih (.fork (.cons .sink (.cons (.mapIn .sink) (.cons .sink .nil)))) rfl
      simp only [pushFrom, send, sends, n] at this ⊢
      simp only [received_append]
      simp only [this.1, this.2.1, this.2.2]
      simp [received, h5, h6, h7, h8, h9, h10, e h5, e h6, e h7, e h8, e h9, e h10]
  exact key (init n) rfl

/-- **C06** (aliasing) What a fork target writes into the item with `args/out` (any `f`: e.g. a
`routeMap`) is seen by the targets listed after it, and not by the ones before it. -/
theorem inPlace_seen_by_later_targets (i a m b c : Nat) (f : α → α) (hn : [i, a, m, b, c].Nodup) (xs : List α) :
    let n : Net α := .fork i (.cons (.sink a fun _ => none) (.cons (.mapIn m (fun x => .ok (f x)) (.sink b fun _ => none))
      (.cons (.sink c fun _ => none) .nil)))
    received a (push xs n).trace = xs ∧ received b (push xs n).trace = xs.map f ∧
    received c (push xs n).trace = xs.map f := received_fork_inPlace i a m b c f hn xs

/-- **C06** (no aliasing) A plain `map` (no `args`/`out`) in one target is not seen by the others. -/
theorem plain_map_not_seen (i a m b c : Nat) (f : α → α) (hn : [i, a, m, b, c].Nodup) (xs : List α) :
    let n : Net α := .fork i (.cons (.sink a fun _ => none) (.cons (.map m (fun x => .ok (f x)) (.sink b fun _ => none))
      (.cons (.sink c fun _ => none) .nil)))
    received a (push xs n).trace = xs ∧ received b (push xs n).trace = xs.map f ∧
    received c (push xs n).trace = xs := by
  simp only [List.nodup_cons, List.mem_cons, not_or] at hn
  obtain ⟨⟨h1, h2, h3, h4, -⟩, ⟨h5, h6, h7, -⟩, ⟨h8, h9, -⟩, ⟨h10, -⟩, -⟩ := hn
  have e : ∀ {p q : Nat}, p ≠ q → q ≠ p := fun h => h.symm
  intro n
  have key : ∀ s : St n, s = .fork (.cons .sink (.cons (.map .sink) (.cons .sink .nil))) →
      received a (pushFrom n s xs).trace = xs ∧ received b (pushFrom n s xs).trace = xs.map f ∧
      received c (pushFrom n s xs).trace = xs := by
    induction xs with
    | nil =>
      rintro s rfl
      simp [pushFrom, close, closes, received, n]
    | cons x xs ih =>
      rintro s rfl
      have := ih (.fork (.cons .sink (.cons (.map .sink) (.cons .sink .nil)))) rfl
      simp only [pushFrom, send, sends, n] at this ⊢
      simp only [received_append]
      simp only [this.1, this.2.1, this.2.2]
      simp [received, h5, h6, h7, h8, h9, h10, e h5, e h6, e h7, e h8, e h9, e h10]
  exact key (init n) rfl

/-- Concrete instance: `map(sum, args=("a", "b"), out="c")` on `{a: 2, b: 3}`. -/
example : ∃ d', routeMap (fun r => some [r]) (fun vs => .ok vs.sum) (.many ["a", "b"]) (.one "c")
    (fun k => if k = "a" then some 2 else if k = "b" then some 3 else none) = .ok d' ∧ d' "c" = some 5 ∧ d' "a" = some 2 := by
  refine ⟨_, rfl, ?_, ?_⟩ <;> decide
example : ∃ d', routeMap (fun r => some [r, r + 1]) (fun vs => .ok vs.sum) (.many ["a", "b"]) (.many ["b", "c"])
    (fun k => if k = "a" then some 2 else if k = "b" then some 3 else none) = .ok d' ∧
    d' "b" = some 5 ∧ d' "c" = some 6 ∧ d' "a" = some 2 := by
  refine ⟨_, rfl, ?_, ?_, ?_⟩ <;> decide
example : ∃ k ∈ ["a", "z"], (fun k => if k = "a" then some 2 else none : Item Nat) k = none := ⟨"z", by simp, by decide⟩
example : [0, 1, 2, 3, 4].Nodup := by decide

/-- **C06** (aliasing, branch) What a side branch writes into the item with `args/out` is seen by everything
downstream: whatever the network downstream, it behaves as if alone with the rewritten items. -/
theorem branch_inPlace_seen_downstream (i m c : Nat) (f : α → α) (down : Net α)
    (hn : (Net.branch i (.mapIn m (fun x => .ok (f x)) (.sink c fun _ => none)) down).ids.Nodup) (xs : List α) :
    let r := push xs (.branch i (.mapIn m (fun x => .ok (f x)) (.sink c fun _ => none)) down)
    only down.ids r.trace = (push (xs.map f) down).trace ∧ r.exc = (push (xs.map f) down).exc ∧
    received c r.trace = (xs.take r.consumed).map f := by
  simp only [Net.ids, List.cons_append, List.nodup_cons, List.mem_cons, List.nil_append, not_or,
    List.mem_nil_iff, not_false_iff, List.mem_append, List.mem_singleton] at hn
  obtain ⟨⟨him, hic, hid⟩, ⟨hmc, hmd⟩, hcd, hdn⟩ := hn
  have hdin : ∀ (s : St down), EvsIn down.ids (close down s) := (inIds down).1
  have hd2 : ∀ (s : St down) x, EvsIn down.ids (send down s x).evs := (inIds down).2
  have hrec : ∀ evs : List (Ev α), EvsIn down.ids evs → received c evs = [] := by
    intro evs h
    unfold received
    rw [List.filterMap_eq_nil_iff]
    intro e he
    have := h e he
    cases e <;> simp_all [Ev.id]
    rintro rfl; exact hcd this
  have key : ∀ (sd : St down),
      let r := pushFrom (.branch i (.mapIn m (fun x => .ok (f x)) (.sink c fun _ => none)) down) (.branch (.mapIn .sink) sd) xs
      only down.ids r.trace = (pushFrom down sd (xs.map f)).trace ∧ r.exc = (pushFrom down sd (xs.map f)).exc ∧
      received c r.trace = (xs.take r.consumed).map f := by
    induction xs with
    | nil =>
      intro sd
      simp only [pushFrom, close, List.map_nil, List.take_nil]
      refine ⟨?_, trivial, ?_⟩
      · simp only [only_append, only_self (hdin sd)]
        simp [only, Ev.id, hcd, hmd, hid]
      · simp only [received_append, hrec _ (hdin sd)]
        simp [received]
    | cons x xs ih =>
      intro sd
      simp only [pushFrom, send, List.map_cons]
      cases h2 : (send down sd (f x)).next with
      | ok sd' =>
        obtain ⟨q1, q2, q3⟩ := ih sd'
        simp only at q1 q2 q3 ⊢
        refine ⟨?_, q2, ?_⟩
        · rw [only_append, q1, only_append, only_self (hd2 sd (f x))]
          simp [only, Ev.id, hcd]
        · rw [received_append, q3, received_append, hrec _ (hd2 sd (f x))]
          simp [received]
      | error e =>
        have o1 := only_self (hd2 sd (f x))
        have r1 := hrec _ (hd2 sd (f x))
        have o2 : ∀ (j : Nat) (l : List (Ev α)), j ∉ down.ids → only down.ids (.closed j :: l) = only down.ids l := by
          intro j l hj; simp [only, Ev.id, hj]
        have o3 : ∀ (y : α) (l : List (Ev α)), only down.ids (.recv c y :: l) = only down.ids l := by
          intro y l; simp [only, Ev.id, hcd]
        have o4 : only down.ids ([] : List (Ev α)) = [] := rfl
        have r2 : ∀ (j : Nat) (l : List (Ev α)), received c (.closed j :: l) = received c l := by
          intro j l; simp [received]
        have r3 : ∀ (y : α) (l : List (Ev α)), received c (.recv c y :: l) = y :: received c l := by
          intro y l; simp [received]
        have r4 : received c ([] : List (Ev α)) = [] := rfl
        cases e <;> refine ⟨?_, rfl, ?_⟩ <;>
          simp [only_append, received_append, o1, o2, o3, o4, r1, r2, r3, r4, close, hcd, hmd, hid]
  exact key (init down)

example : (push [1, 2] (.branch 0 (.mapIn 1 (fun x : Nat => .ok (x + 10)) (.sink 2 fun _ => none))
    (.sink 3 fun x => if x = 12 then some .stop else none))).trace =
    [.recv 2 11, .recv 3 11, .recv 2 12, .recv 3 12, .closed 3, .closed 2, .closed 1, .closed 0] := by decide

end Verif.Dataflow
