import Verif.Lemmas.DataflowLife
/-!
# C03, C04: components are closed exactly once; futures report what was received

`push xs n` runs a source `xs` through an arbitrary network `n` of components whose user functions
may raise (`StopPipeline` or anything else) on any item.  `(push xs n).trace` is what can be observed.
Identities are assumed to be pairwise distinct (`n.ids.Nodup`): they only label events.
-/
namespace Verif.Dataflow
variable {α : Type}

/-- **C03** Whatever the network, the source, and the user function that raises (or none): every
component has been closed exactly once when the run is over, its future (if any) was set at most once
and nothing at all happens to it after it was closed. -/
theorem closed_exactly_once (n : Net α) (hn : n.ids.Nodup) (xs : List α) (i : Nat) (hi : i ∈ n.ids) :
    timesClosed i (push xs n).trace = 1 ∧
    (results i (push xs n).trace).length ≤ 1 ∧
    ∀ pre post, (push xs n).trace = pre ++ .closed i :: post → ∀ e ∈ post, e.id ≠ i := by
  obtain ⟨ys, fin, h, hf⟩ := life_run hn hi xs
  have hcount : timesClosed i (push xs n).trace = 1 := by
    rw [← timesClosed_only, h]
    rcases hf with rfl | ⟨v, rfl⟩ <;> simp [timesClosed, List.filter_map, Function.comp_def]
  have hlast : ∃ l : List (Ev α), only [i] (push xs n).trace = l ++ [.closed i] := by
    rw [h]
    rcases hf with rfl | ⟨v, rfl⟩
    · exact ⟨_, rfl⟩
    · exact ⟨ys.map (Ev.recv i) ++ [.result i v], by simp⟩
  refine ⟨hcount, ?_, ?_⟩
  · rw [← results_only, h]
    have : results i (ys.map (Ev.recv i)) = [] := by
      clear h; induction ys with
      | nil => rfl
      | cons y ys ih => simpa [results] using ih
    rw [results_append, this]
    rcases hf with rfl | ⟨v, rfl⟩ <;> simp [results]
  · intro pre post hs e he hid
    obtain ⟨l, hl⟩ := hlast
    have hmem : e ∈ only [i] post := by simp [only, hid, he]
    -- the last event of component `i` is a `closed i` in `post`
    have h1 : only [i] pre ++ [.closed i] ++ only [i] post = l ++ [.closed i] := by
      rw [← hl, hs]; simp [only, Ev.id]
    have h2 : ∃ l', only [i] post = l' ++ [.closed i] := by
      rcases List.eq_nil_or_concat (only [i] post) with h0 | ⟨l', a, h0⟩
      · rw [h0] at hmem; simp at hmem
      · rw [h0] at h1
        simp only [List.concat_eq_append, ← List.append_assoc] at h1
        have := (List.append_inj' h1 rfl).2
        simp at this
        exact ⟨l', by rw [h0, this]; simp⟩
    obtain ⟨l', h2⟩ := h2
    have : timesClosed i (push xs n).trace ≥ 2 := by
      rw [hs, ← timesClosed_only, only_append]
      have : only [i] (Ev.closed i :: post) = .closed i :: (l' ++ [.closed i]) := by
        rw [← h2]; simp [only, Ev.id]
      rw [this]
      simp [timesClosed]
      omega
    omega

/-- A network with every kind of component; the sink raises on 3. -/
def exampleNet : Net Nat :=
  .branch 0 (.count 1) <| .map 2 (fun x => .ok (x + 1)) <| .countFilter 3 (fun x => .ok (x != 2)) <|
    .fork 4 (.ofList [.reduce 5 (fun a x => .ok (a + x)) 0,
                      .sink 6 (fun x => if x = 3 then some .stop else none),
                      .spy 7 (fun _ => none) (.slice 8 0 (some 2) 1 false (.sink 9 fun _ => none))])

example : exampleNet.ids.Nodup ∧ (9 : Nat) ∈ exampleNet.ids := by decide
example : (push [0, 1, 2, 3] exampleNet).consumed = 3 ∧ received 6 (push [0, 1, 2, 3] exampleNet).trace = [1, 3] := by decide

/-! ### Futures -/

theorem pushFrom_reduce (i : Nat) (upd : α → α → Except Exc α) (a₀ : α) (xs : List α) : ∀ a,
    results i (pushFrom (.reduce i upd a₀) (.reduce a) xs).trace =
      [.val (foldUpd upd a (received i (pushFrom (.reduce i upd a₀) (.reduce a) xs).trace))] := by
  induction xs with
  | nil => intro a; simp [pushFrom, close, results, received, foldUpd]
  | cons x xs ih =>
    intro a
    rw [pushFrom_cons]
    simp only [send]
    cases h : upd a x with
    | error e => cases e <;> simp [results, received, foldUpd, h]
    | ok a' =>
      simp only [results_append, received_append]
      rw [ih a']
      simp [results, received, foldUpd, h]

/-- **C04** (reduce) The future of a `reduce` anywhere in any network is set exactly once, to the left
fold of its update over the items it was handed, however the run ends. -/
theorem reduce_future (n : Net α) (hn : n.ids.Nodup) (i : Nat) (upd : α → α → Except Exc α) (a₀ : α)
    (hp : Part (.reduce i upd a₀) n) (xs : List α) :
    results i (push xs n).trace = [.val (foldUpd upd a₀ (received i (push xs n).trace))] := by
  obtain ⟨ys, h⟩ := local_run hp hn xs
  have hm : i ∈ (Net.reduce i upd a₀).ids := by simp [Net.ids]
  rw [← results_ids hm, ← received_ids hm (push xs n).trace, h]
  exact pushFrom_reduce i upd a₀ ys a₀

theorem pushFrom_count (i : Nat) (xs : List α) : ∀ k,
    results i (pushFrom (.count i) (.count k) xs).trace =
      [.num (k + (received i (pushFrom (.count i) (.count k) xs).trace).length)] := by
  induction xs with
  | nil => intro k; simp [pushFrom, close, results, received]
  | cons x xs ih =>
    intro k
    rw [pushFrom_cons]
    simp only [send]
    simp only [results_append, received_append]
    rw [ih (k + 1)]
    simp [results, received]; omega

/-- **C04** (count) The future of a `count` (or of a `spy_count`, which is a branch to a `count`)
anywhere in any network is set exactly once, to the number of items it was handed. -/
theorem count_future (n : Net α) (hn : n.ids.Nodup) (i : Nat) (hp : Part (.count i) n) (xs : List α) :
    results i (push xs n).trace = [.num (received i (push xs n).trace).length] := by
  obtain ⟨ys, h⟩ := local_run hp hn xs
  have hm : i ∈ (Net.count (α := α) i).ids := by simp [Net.ids]
  rw [← results_ids hm, ← received_ids hm (push xs n).trace, h]
  simpa [push, init] using pushFrom_count i ys 0

/-- The predicate returned `b` on `x`. -/
def gave (p : α → Except Exc Bool) (b : Bool) (x : α) : Bool :=
  match p x with | .ok b' => b' == b | .error _ => false

theorem pushFrom_countFilter (i : Nat) (p : α → Except Exc Bool) (t : Net α) (hi : i ∉ t.ids) (xs : List α) :
    ∀ a b s,
    results i (pushFrom (.countFilter i p t) (.countFilter a b s) xs).trace =
      [.passedFailed
        (a + (received i (pushFrom (.countFilter i p t) (.countFilter a b s) xs).trace).countP (gave p true))
        (b + (received i (pushFrom (.countFilter i p t) (.countFilter a b s) xs).trace).countP (gave p false))] := by
  have rc := fun s => results_none ((inIds t).1 s) hi
  have rs := fun s x => results_none ((inIds t).2 s x) hi
  have vc := fun s => received_none ((inIds t).1 s) hi
  have vs := fun s x => received_none ((inIds t).2 s x) hi
  have h1 : ∀ l : List (Ev α), ∀ x, results i (.recv i x :: l) = results i l := by intros; simp [results]
  have h2 : ∀ l : List (Ev α), ∀ x, received i (.recv i x :: l) = x :: received i l := by intros; simp [received]
  have h3 : ∀ v, results i [Ev.result (α := α) i v, .closed i] = [v] := by intros; simp [results]
  have h4 : ∀ v, received i [Ev.result (α := α) i v, .closed i] = [] := by intros; simp [received]
  induction xs with
  | nil => intro a b s; simp [pushFrom, close, results_append, received_append, rc, vc, h3, h4]
  | cons x xs ih =>
    intro a b s
    rw [pushFrom_cons]
    simp only [send]
    cases hp : p x with
    | error e =>
      cases e <;> simp [h1, h2, h3, h4, results_append, received_append, rc, vc, gave, hp]
    | ok v =>
      cases v with
      | false =>
        simp only [List.cons_append, List.nil_append, h1, h2]
        rw [ih]
        simp [gave, hp]; omega
      | true =>
        cases hs : (send t s x).next with
        | error e =>
          cases e <;> simp [h1, h2, h3, h4, results_append, received_append, rs, vs, gave, hp]
        | ok s' =>
          simp only [List.cons_append, results_append, received_append, rs, vs, h1, h2, List.nil_append]
          rw [ih]
          simp [gave, hp]; omega

/-- **C04** (count_filter) The future of a `count_filter` anywhere in any network is set exactly once,
to the number of items it was handed on which the predicate returned true, and the number of those on
which it returned false. -/
theorem countFilter_future (n : Net α) (hn : n.ids.Nodup) (i : Nat) (p : α → Except Exc Bool) (t : Net α)
    (hp : Part (.countFilter i p t) n) (xs : List α) :
    results i (push xs n).trace =
      [.passedFailed ((received i (push xs n).trace).countP (gave p true))
                     ((received i (push xs n).trace).countP (gave p false))] := by
  obtain ⟨ys, h⟩ := local_run hp hn xs
  have hc := part_nodup hp hn
  simp only [Net.ids, List.nodup_cons] at hc
  have hm : i ∈ (Net.countFilter i p t).ids := by simp [Net.ids]
  rw [← results_ids hm, ← received_ids hm (push xs n).trace, h]
  simpa [push, init] using pushFrom_countFilter i p t hc.1 ys 0 0 (init t)

/-- **C04** If the predicate never raises, passed + failed is the number of items handed over. -/
theorem countFilter_total (n : Net α) (hn : n.ids.Nodup) (i : Nat) (p : α → Bool) (t : Net α)
    (hp : Part (.countFilter i (fun x => .ok (p x)) t) n) (xs : List α) :
    ∃ a b, results i (push xs n).trace = [.passedFailed a b] ∧
      a = ((received i (push xs n).trace).filter p).length ∧
      a + b = (received i (push xs n).trace).length := by
  refine ⟨_, _, countFilter_future n hn i _ t hp xs, ?_, ?_⟩
  · rw [← List.countP_eq_length_filter]
    apply List.countP_congr
    intro x _; simp [gave]
  · rw [List.length_eq_countP_add_countP (gave (fun x => .ok (p x)) true)]
    congr 1
    apply List.countP_congr
    intro x _; cases h : p x <;> simp [gave, h]

example : Part (Net.reduce 5 (fun a x => .ok (a + x)) 0) exampleNet ∧
    results 5 (push [0, 1, 2, 3] exampleNet).trace = [.val 4] ∧
    received 5 (push [0, 1, 2, 3] exampleNet).trace = [1, 3] :=
  ⟨.branchDown (.map (.countFilter (.fork .head .refl))), by decide, by decide⟩
example : Part (Net.count 1) exampleNet ∧
    results 1 (push [0, 1, 2, 3] exampleNet).trace = [.num 3] := ⟨.branchSide .refl, by decide⟩
/-- The items that passed include the one on which a downstream component raised. -/
example : results 3 (push [0, 1, 2, 3] exampleNet).trace = [.passedFailed 2 1] := by decide

end Verif.Dataflow
