import Verif.Lemmas.DataflowOps
/-!
# C01, C05: a pipe is the composition of its pieces; slice is Python's slice

The theorems range over an arbitrary downstream network `t`/`last` (forks, branches, slices, sinks
whose effects raise at any item, ...).
-/
namespace Verif.Dataflow
variable {α : Type}

/-- **C01** `map(f)` in front of any network: the run is the run of that network on the mapped source
(same events in the same order, same exception, same number of items taken from the source). -/
theorem push_map (i : Nat) (f : α → α) (t : Net α) (xs : List α) :
    push xs (.map i (fun x => .ok (f x)) t) = (push (xs.map f) t).andClosed i := by
  simpa [push, init] using pushFrom_map i f t xs (init t)

/-- **C01** `map(f)` that may raise: downstream sees the results up to the first item on which `f`
raises, and is closed properly. -/
theorem push_map_raising (i : Nat) (op : α → Except Exc α) (t : Net α) (xs : List α) :
    (push xs (.map i op t)).trace = (push (mapOk op xs).1 t).trace ++ [.closed i] := by
  simpa [push, init] using pushFrom_mapOp i op t xs (init t)

/-- **C01** `filter(p)` in front of any network, `p` possibly raising. -/
theorem push_filter_raising (i : Nat) (p : α → Except Exc Bool) (t : Net α) (xs : List α) :
    (push xs (.filter i p t)).trace = (push (filterOk p xs) t).trace ++ [.closed i] := by
  simpa [push, init] using pushFrom_filterOp i p t xs (init t)

/-- **C01** `flatmap(f)` in front of any network, `f` possibly raising. -/
theorem push_flatmap_raising (i : Nat) (op : α → Except Exc (List α)) (t : Net α) (xs : List α) :
    (push xs (.flatmap i op t)).trace = (push (mapOk op xs).1.flatten t).trace ++ [.closed i] := by
  simpa [push, init] using pushFrom_flatmapOp i op t xs (init t)

/-- **C01** A spy sees exactly the items that are taken from the source, in order. -/
theorem push_spy_received (i : Nat) (t : Net α) (hi : i ∉ t.ids) (xs : List α) :
    received i (push xs (.spy i (fun _ => none) t)).trace = xs.take (push xs t).consumed := by
  simpa [push, init] using pushFrom_spy_received i t hi xs (init t)

/-- The items up to the first one that a predicate holds for, this one included. -/
def UpToFirst (p : α → Bool) (xs ys : List α) : Prop :=
  ∃ zs, xs = ys ++ zs ∧ (∀ x ∈ ys.dropLast, p x = false) ∧ (zs ≠ [] → ∃ y, ys.getLast? = some y ∧ p y = true)

theorem pushFrom_stopWhen (i : Nat) (p : α → Bool) (xs : List α) :
    ∃ ys, UpToFirst p xs ys ∧ received i (pushFrom (stopWhen i p) .sink xs).trace = ys ∧
      (pushFrom (stopWhen i p) .sink xs).exc = none ∧ (pushFrom (stopWhen i p) .sink xs).consumed = ys.length := by
  induction xs with
  | nil => exact ⟨[], ⟨[], rfl, by simp, fun h => absurd rfl h⟩, rfl, rfl, rfl⟩
  | cons x xs ih =>
    cases hp : p x with
    | true =>
      have hs : send (stopWhen i p) .sink x = ⟨x, [.recv i x, .closed i], .error .stop⟩ := by
        unfold stopWhen; simp only [send, hp, if_true]
      refine ⟨[x], ⟨xs, rfl, by simp, fun _ => ⟨x, rfl, hp⟩⟩, ?_, ?_, ?_⟩
      · simp [pushFrom, hs, received]
      · simp only [pushFrom, hs]
      · simp only [pushFrom, hs, List.length_singleton]
    | false =>
      obtain ⟨ys, ⟨zs, h1, h2, h3⟩, h4, h5, h6⟩ := ih
      have hs : send (stopWhen i p) .sink x = ⟨x, [.recv i x], .ok .sink⟩ := by
        unfold stopWhen; simp [send, hp]
      refine ⟨x :: ys, ⟨zs, by rw [h1]; rfl, ?_, ?_⟩, ?_, ?_, ?_⟩
      · intro y hy
        cases ys with
        | nil => simp at hy
        | cons a ys =>
          rw [List.dropLast_cons_of_ne_nil (by simp), List.mem_cons] at hy
          rcases hy with rfl | hy
          · exact hp
          · exact h2 _ hy
      · intro hz
        obtain ⟨y, hy, hpy⟩ := h3 hz
        refine ⟨y, ?_, hpy⟩
        cases ys with
        | nil => simp at hy
        | cons a ys => rw [List.getLast?_cons_cons]; exact hy
      · rw [← h4]
        simp [pushFrom, hs, received]
      · simpa only [pushFrom, hs] using h5
      · simp only [pushFrom, hs, h6, List.length_cons]

/-- **C03** `stop_when(p)` receives the items up to the first one with `p`, this one included; no other is taken from the source and no exception escapes. -/
theorem push_stopWhen (i : Nat) (p : α → Bool) (xs : List α) :
    ∃ ys, UpToFirst p xs ys ∧ received i (push xs (stopWhen i p)).trace = ys ∧ (push xs (stopWhen i p)).exc = none ∧ (push xs (stopWhen i p)).consumed = ys.length :=
  pushFrom_stopWhen i p xs

example : received 1 (push [1, 3, 4, 5, 6] (stopWhen 1 (· == 4))).trace = [1, 3, 4] ∧ (push [1, 3, 4, 5, 6] (stopWhen 1 (· == 4))).consumed = 3 := by decide

/-- One stage of a linear pipe, with pure user functions. -/
inductive Stage (α : Type) where
  | map (f : α → α)
  | mapIn (f : α → α)
  | filter (p : α → Bool)
  | countFilter (p : α → Bool)
  | flatmap (f : α → List α)
  | spy
  | slice (start : Nat) (stop : Option Nat) (gap : Nat) (closeAll : Bool)

/-- What a stage does to a stream: plain list functions. -/
def Stage.onList : Stage α → List α → List α
  | .map f, xs => xs.map f
  | .mapIn f, xs => xs.map f
  | .filter p, xs => xs.filter p
  | .countFilter p, xs => xs.filter p
  | .flatmap f, xs => xs.flatMap f
  | .spy, xs => xs
  | .slice a b g _, xs => pySlice a b (g + 1) xs

/-- The component that implements a stage. -/
def Stage.net (i : Nat) : Stage α → Net α → Net α
  | .map f => .map i fun x => .ok (f x)
  | .mapIn f => .mapIn i fun x => .ok (f x)
  | .filter p => .filter i fun x => .ok (p x)
  | .countFilter p => .countFilter i fun x => .ok (p x)
  | .flatmap f => .flatmap i fun x => .ok (f x)
  | .spy => .spy i fun _ => none
  | .slice a b g ca => .slice i a b g ca

theorem filterOk_pure (p : α → Bool) (xs : List α) : filterOk (fun x => .ok (p x)) xs = xs.filter p := by
  induction xs with
  | nil => rfl
  | cons x xs ih => simp only [filterOk]; cases h : p x <;> simp [h, ih]

theorem stage_ids (i : Nat) (s : Stage α) (t : Net α) : (s.net i t).ids = i :: t.ids := by
  cases s <;> simp [Stage.net, Net.ids]

theorem pushFrom_spy_exc (i : Nat) (t : Net α) (xs : List α) : ∀ s : St t,
    (pushFrom (.spy i (fun _ => none) t) (.spy s) xs).exc = (pushFrom t s xs).exc := by
  induction xs with
  | nil => intro s; rfl
  | cons x xs ih =>
    intro s; rw [pushFrom_cons, pushFrom_cons]; simp only [send]
    cases h : (send t s x).next with
    | ok s' => simp [ih s']
    | error e => cases e <;> simp

theorem pushFrom_countFilter_exc (i : Nat) (p : α → Bool) (t : Net α) (xs : List α) : ∀ a b (s : St t),
    (pushFrom (.countFilter i (fun x => .ok (p x)) t) (.countFilter a b s) xs).exc =
      (pushFrom t s (xs.filter p)).exc := by
  induction xs with
  | nil => intro a b s; rfl
  | cons x xs ih =>
    intro a b s
    cases hp : p x with
    | false => rw [pushFrom_cons, List.filter_cons_of_neg (by simp [hp])]; simp [send, hp, ih]
    | true =>
      rw [pushFrom_cons, List.filter_cons_of_pos hp, pushFrom_cons]; simp only [send, hp]
      cases h : (send t s x).next with
      | ok s' => simp [ih]
      | error e => cases e <;> simp

theorem only_closed_none {i : Nat} {ids : List Nat} (h : i ∉ ids) : only ids [Ev.closed (α := α) i] = [] := by
  simp [only, Ev.id, h]

theorem stage_push (i : Nat) (s : Stage α) (t : Net α) (hi : i ∉ t.ids) (xs : List α) :
    only t.ids (push xs (s.net i t)).trace = (push (s.onList xs) t).trace ∧
    (push xs (s.net i t)).exc = (push (s.onList xs) t).exc := by
  have hs : ∀ ys, only t.ids (push ys t).trace = (push ys t).trace :=
    fun ys => only_self ((inIds t).act (Act.pushFrom ys (init t)))
  cases s with
  | map f => simp [Stage.net, Stage.onList, push_map, Run.andClosed, only_append, only_closed_none hi, hs]
  | mapIn f =>
    have := pushFrom_mapIn i f t xs (init t)
    simp only [push, init, Stage.net, Stage.onList] at this ⊢
    simp only [push] at hs
    simp [this, Run.andClosed, only_append, only_closed_none hi, hs]
  | filter p =>
    have := pushFrom_filter i p t xs (init t)
    simp only [push, init, Stage.net, Stage.onList] at this ⊢
    simp only [push] at hs
    simp [this.1, this.2, only_append, only_closed_none hi, hs]
  | countFilter p =>
    have h1 := pushFrom_countFilterOp i (fun x => .ok (p x)) t hi xs 0 0 (init t)
    have h2 := pushFrom_countFilter_exc i p t xs 0 0 (init t)
    simp only [push, init, Stage.net, Stage.onList] at h1 h2 ⊢
    rw [h1, h2, filterOk_pure]; simp
  | flatmap f =>
    have := pushFrom_flatmap i f t xs (init t)
    simp only [push, init, Stage.net, Stage.onList] at this ⊢
    simp only [push] at hs
    simp [this.1, this.2, only_append, only_closed_none hi, hs]
  | spy =>
    have h1 := pushFrom_spy i (fun _ => none) t hi xs (init t)
    have h2 := pushFrom_spy_exc i t xs (init t)
    simp only [push, init, Stage.net, Stage.onList] at h1 h2 ⊢
    rw [h1, h2]
    have : xs.takeWhile (fun x => (none : Option Exc).isNone) = xs := by
      clear h1 h2; induction xs with
      | nil => rfl
      | cons x xs ih => simpa using ih
    rw [this]; simp
  | slice a b g ca =>
    have := pushFrom_slice i a b g ca t xs (sliceInit a b g) (init t)
    simp only [push, init, Stage.net, Stage.onList] at this ⊢
    simp only [push] at hs
    simp [this.1, this.2, sel_init, only_append, only_closed_none hi, hs]

/-- **C01** A linear pipe of any number of stages in front of any network `last`: what happens in
`last`, and the exception that escapes from `push`, are those of running `last` alone on the source
transformed by the plain list functions of the stages, one after the other. -/
theorem pipe_composition (stages : List (Nat × Stage α)) (last : Net α)
    (hn : (pipe (stages.map fun s => s.2.net s.1) last).ids.Nodup) (xs : List α) :
    only last.ids (push xs (pipe (stages.map fun s => s.2.net s.1) last)).trace =
      (push (stages.foldl (fun stream s => s.2.onList stream) xs) last).trace ∧
    (push xs (pipe (stages.map fun s => s.2.net s.1) last)).exc =
      (push (stages.foldl (fun stream s => s.2.onList stream) xs) last).exc := by
  induction stages generalizing xs with
  | nil =>
    simp only [pipe, List.map_nil, List.foldr_nil, List.foldl_nil]
    exact ⟨only_self ((inIds last).act (Act.pushFrom xs (init last))), by simp⟩
  | cons st sts ih =>
    simp only [pipe, List.map_cons, List.foldr_cons, List.foldl_cons] at hn ih ⊢
    rw [stage_ids, List.nodup_cons] at hn
    have h := stage_push st.1 st.2 _ hn.1 xs
    have ih' := ih hn.2 (st.2.onList xs)
    rw [h.2, ← ih'.1, ← ih'.2]
    refine ⟨?_, rfl⟩
    rw [← h.1]
    rw [only_only]
    intro j hj
    clear h ih' ih hn
    induction sts with
    | nil => exact hj
    | cons s ss ih => rw [List.map_cons, List.foldr_cons, stage_ids]; simp [ih]

/-- **C01** `pipe` nests: a sub-pipe used as a component is the same as its pieces written inline. -/
theorem pipe_assoc (a b c : List (Net α → Net α)) (last : Net α) :
    pipe (a ++ [pipeOpen b] ++ c) last = pipe (a ++ b ++ c) last := by
  simp [pipe, pipeOpen]

example : (pipe (([(1, .map (· + 1)), (2, .slice 1 none 1 false), (3, .flatmap fun x => [x, x]),
      (4, .countFilter (· < 4))] : List (Nat × Stage Nat)).map fun s => s.2.net s.1)
      (.fork 5 (.ofList [.sink 6 fun _ => none, stopWhen 7 (· == 3)]))).ids.Nodup ∧
    received 6 (push [0, 1, 2, 3] (pipe (([(1, .map (· + 1)), (2, .slice 0 none 1 false),
      (3, .flatmap fun x => [x, x]), (4, .countFilter (· < 4))] : List (Nat × Stage Nat)).map fun s => s.2.net s.1)
      (.fork 5 (.ofList [.sink 6 fun _ => none, stopWhen 7 (· == 3)])))).trace = [1, 1, 3] := by decide
example : (7 : Nat) ∉ (Net.sink (α := Nat) 6 fun _ => none).ids := by decide

/-! ### slice -/

/-- **C05** `slice(start, stop, step)` in front of any network: downstream sees exactly
`xs[start:stop:step]`, with or without `close_all`. -/
theorem slice_selects (i start : Nat) (stop : Option Nat) (gap : Nat) (closeAll : Bool) (t : Net α) (xs : List α) :
    (push xs (.slice i start stop gap closeAll t)).trace =
      (push (pySlice start stop (gap + 1) xs) t).trace ++ [.closed i] ∧
    (push xs (.slice i start stop gap closeAll t)).exc = (push (pySlice start stop (gap + 1) xs) t).exc := by
  have := pushFrom_slice i start stop gap closeAll t xs (sliceInit start stop gap) (init t)
  simpa [push, init, sel_init] using this

/-- **C05** Rejected arguments. -/
theorem slice_rejects (i : Nat) (start stop step : Option Int) (closeAll : Bool) :
    (∃ msg, mkSlice (α := α) i start stop step closeAll = .error msg) ↔
      (∃ a, start = some a ∧ a < 0) ∨ (∃ a, stop = some a ∧ a < 0) ∨ (∃ a, step = some a ∧ a ≤ 0) := by
  unfold mkSlice
  cases start <;> cases stop <;> cases step <;> simp only [Option.any] <;>
    (repeat' split) <;> simp_all

/-- **C05** Accepted arguments build the slice with start 0, no stop and step 1 as defaults. -/
theorem slice_accepts (i : Nat) (start stop step : Option Int) (closeAll : Bool)
    (h1 : ∀ a, start = some a → 0 ≤ a) (h2 : ∀ a, stop = some a → 0 ≤ a) (h3 : ∀ a, step = some a → 0 < a)
    (t : Net α) (xs : List α) :
    ∃ component, mkSlice i start stop step closeAll = .ok component ∧
      (push xs (component t)).trace =
        (push (pySlice (start.getD 0).toNat (stop.map Int.toNat) (step.getD 1).toNat xs) t).trace ++ [.closed i] := by
  have e1 : start.any (· < 0) = false := by cases start <;> simp_all
  have e2 : stop.any (· < 0) = false := by cases stop <;> simp_all
  have e3 : step.any (· ≤ 0) = false := by cases step <;> simp_all
  refine ⟨_, by simp [mkSlice, e1, e2, e3]; rfl, ?_⟩
  rw [(slice_selects ..).1]
  have : (step.getD 1).toNat - 1 + 1 = (step.getD 1).toNat := by
    cases step with
    | none => rfl
    | some a => have := h3 a rfl; simp; omega
  rw [this]

/-- **C05** With `close_all` and a `stop`, the number of items taken from the source is bounded,
however long the source is (the items themselves do not depend on it either, by `slice_selects`). -/
theorem slice_closeAll_consumed (i start stop gap : Nat) (t : Net α) (xs : List α) :
    (push xs (.slice i start (some stop) gap true t)).consumed ≤ max (start + 1) (stop + gap) := by
  have key : ∀ k m, (sliceInit start (some stop) gap) = ⟨k, some m⟩ → (k ≠ 0 ∨ m ≠ 0) →
      (push xs (.slice i start (some stop) gap true t)).consumed ≤ k + m * (gap + 1) := by
    intro k m h hkm
    simp only [push, init, h]
    exact pushFrom_slice_consumed i start (some stop) gap t xs k m (init t) hkm
  by_cases h : stop ≤ start
  · have := key (1 + start) 0 (by simp [sliceInit, h, sliceIterations_eq_zero.2 h]) (by omega)
    omega
  · have h0 : sliceIterations start stop gap ≠ 0 := fun hc => h (sliceIterations_eq_zero.1 hc)
    have := key start (sliceIterations start stop gap) (by simp [sliceInit, h]) (by omega)
    have hb : sliceIterations start stop gap * (gap + 1) ≤ stop - start + gap := by
      unfold sliceIterations
      have hnn : (0 : Int) ≤ ((stop : Int) - start + gap) / ((gap : Int) + 1) := Int.ediv_nonneg (by omega) (by omega)
      have := Int.ediv_mul_le ((stop : Int) - start + gap) (b := (gap : Int) + 1) (by omega)
      zify
      rw [Int.toNat_of_nonneg hnn]
      push_cast [Nat.le_of_not_le h]
      linarith
    omega

/-- Seen by a plain sink: `slice(2, 9, 3)` on 0..11, and `slice(None, 5, 2)` with `close_all`. -/
example : received 1 (push (List.range 12) (.slice 0 2 (some 9) 2 false (.sink 1 fun _ => none))).trace = [2, 5, 8] := by
  decide
example : (push (List.range 12) (.slice 0 0 (some 5) 1 true (.sink 1 fun _ => none))).consumed = 6 := by decide
example : pySlice 2 (some 9) 3 (List.range 12) = [2, 5, 8] := by decide
example : ∃ msg, mkSlice (α := Nat) 0 none none (some 0) false = .error msg :=
  (slice_rejects ..).2 (Or.inr (Or.inr ⟨0, rfl, by omega⟩))

end Verif.Dataflow
