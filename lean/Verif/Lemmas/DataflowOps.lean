import Verif.Lemmas.DataflowLife
import Mathlib.Tactic.Linarith
import Mathlib.Tactic.Ring
/-! Helper lemmas: components with raising operations, spies, slices. -/
namespace Verif.Dataflow
variable {α : Type}

/-- Escaping part of an exception: `push` swallows `StopPipeline`. -/
def Exc.escaping : Exc → Option Exc
  | .stop => none
  | e => some e

theorem pushFrom_cons_err (n : Net α) (s : St n) (x : α) (xs : List α) (e : Exc) (h : (send n s x).next = .error e) :
    pushFrom n s (x :: xs) = ⟨(send n s x).evs, e.escaping, 1⟩ := by
  rw [pushFrom_cons, h]; cases e <;> rfl

theorem pushFrom_cons_ok (n : Net α) (s s' : St n) (x : α) (xs : List α) (h : (send n s x).next = .ok s') :
    pushFrom n s (x :: xs) = ⟨(send n s x).evs ++ (pushFrom n s' xs).trace, (pushFrom n s' xs).exc,
      (pushFrom n s' xs).consumed + 1⟩ := by
  rw [pushFrom_cons, h]

/-- Results of an operation on a stream, up to the first item on which it raises. -/
def mapOk {β γ : Type} (op : β → Except Exc γ) : List β → List γ × Option Exc
  | [] => ([], none)
  | x :: xs => match op x with
    | .error e => ([], some e)
    | .ok y => (y :: (mapOk op xs).1, (mapOk op xs).2)

theorem pushFrom_mapOp (i : Nat) (op : α → Except Exc α) (t : Net α) (xs : List α) :
    ∀ s : St t,
      (pushFrom (.map i op t) (.map s) xs).trace = (pushFrom t s (mapOk op xs).1).trace ++ [.closed i] := by
  induction xs with
  | nil => intro s; simp [pushFrom, close, mapOk]
  | cons x xs ih =>
    intro s
    rw [pushFrom_cons]
    simp only [send, mapOk]
    cases ho : op x with
    | error e => cases e <;> simp [pushFrom]
    | ok y =>
      simp only
      rw [pushFrom_cons]
      cases h : (send t s y).next with
      | ok s' => simp [ih s']
      | error e => cases e <;> simp

theorem pushFrom_mapInOp (i : Nat) (op : α → Except Exc α) (t : Net α) (xs : List α) :
    ∀ s : St t,
      (pushFrom (.mapIn i op t) (.mapIn s) xs).trace = (pushFrom t s (mapOk op xs).1).trace ++ [.closed i] := by
  induction xs with
  | nil => intro s; simp [pushFrom, close, mapOk]
  | cons x xs ih =>
    intro s
    rw [pushFrom_cons]
    simp only [send, mapOk]
    cases ho : op x with
    | error e => cases e <;> simp [pushFrom]
    | ok y =>
      simp only
      rw [pushFrom_cons]
      cases h : (send t s y).next with
      | ok s' => simp [ih s']
      | error e => cases e <;> simp

/-- Items for which a predicate returns true, up to the first item on which it raises. -/
def filterOk (p : α → Except Exc Bool) : List α → List α
  | [] => []
  | x :: xs => match p x with
    | .error _ => []
    | .ok true => x :: filterOk p xs
    | .ok false => filterOk p xs

theorem pushFrom_filterOp (i : Nat) (p : α → Except Exc Bool) (t : Net α) (xs : List α) :
    ∀ s : St t,
      (pushFrom (.filter i p t) (.filter s) xs).trace = (pushFrom t s (filterOk p xs)).trace ++ [.closed i] := by
  induction xs with
  | nil => intro s; simp [pushFrom, close, filterOk]
  | cons x xs ih =>
    intro s
    rw [pushFrom_cons]
    simp only [send, filterOk]
    cases hp : p x with
    | error e => cases e <;> simp [pushFrom]
    | ok b =>
      cases b with
      | false => simpa using ih s
      | true =>
        simp only
        rw [pushFrom_cons]
        cases h : (send t s x).next with
        | ok s' => simpa using ih s'
        | error e => cases e <;> simp

theorem pushFrom_flatmapOp (i : Nat) (op : α → Except Exc (List α)) (t : Net α) (xs : List α) :
    ∀ s : St t,
      (pushFrom (.flatmap i op t) (.flatmap s) xs).trace =
        (pushFrom t s (mapOk op xs).1.flatten).trace ++ [.closed i] := by
  induction xs with
  | nil => intro s; simp [pushFrom, close, mapOk]
  | cons x xs ih =>
    intro s
    rw [pushFrom_cons]
    simp only [send, mapOk]
    cases ho : op x with
    | error e => cases e <;> simp [pushFrom]
    | ok ys =>
      simp only [List.flatten_cons]
      have key := pushFrom_append t (mapOk op xs).1.flatten ys s
      cases h : (sendList (send t) s ys).2 with
      | ok s' =>
        have k := key.1 s' h
        simp [k.1, ih s']
      | error e =>
        have k := key.2 e h
        cases e <;> simp [k.1]

/-- Downstream of a spy. -/
theorem pushFrom_spy (i : Nat) (eff : α → Option Exc) (t : Net α) (hi : i ∉ t.ids) (xs : List α) :
    ∀ s : St t,
      only t.ids (pushFrom (.spy i eff t) (.spy s) xs).trace =
        (pushFrom t s (xs.takeWhile fun x => (eff x).isNone)).trace := by
  have hd : ∀ j ∈ [i], j ∉ t.ids := by simpa using hi
  have e0 : only t.ids [Ev.closed (α := α) i] = [] := only_none (ids' := [i]) (by simp [EvsIn, Ev.id]) hd
  have e1 : ∀ x (l : List (Ev α)), only t.ids (.recv i x :: l) = only t.ids l := by
    intro x l; simp [only, Ev.id, hi]
  have oc := fun s => only_self ((inIds t).1 s)
  have os := fun s x => only_self ((inIds t).2 s x)
  induction xs with
  | nil => intro s; simp [pushFrom, close, only_append, oc, e0]
  | cons x xs ih =>
    intro s
    rw [pushFrom_cons]
    simp only [send]
    cases ho : eff x with
    | some e => cases e <;> simp [ho, e1, only_append, oc, e0, pushFrom]
    | none =>
      rw [List.takeWhile_cons_of_pos (by simp [ho]), pushFrom_cons]
      cases h : (send t s x).next with
      | ok s' => simp [e1, only_append, os, ih s']
      | error e => cases e <;> simp [e1, only_append, os, e0]

theorem pushFrom_spy_received (i : Nat) (t : Net α) (hi : i ∉ t.ids) (xs : List α) :
    ∀ s : St t,
      received i (pushFrom (.spy i (fun _ => none) t) (.spy s) xs).trace =
        xs.take (pushFrom t s xs).consumed := by
  have vc := fun s => received_none ((inIds t).1 s) hi
  have vs := fun s x => received_none ((inIds t).2 s x) hi
  have h2 : ∀ l : List (Ev α), ∀ x, received i (.recv i x :: l) = x :: received i l := by intros; simp [received]
  have h3 : received i [Ev.closed (α := α) i] = [] := by simp [received]
  induction xs with
  | nil => intro s; simp [pushFrom, close, received_append, vc, h3]
  | cons x xs ih =>
    intro s
    rw [pushFrom_cons, pushFrom_cons]
    simp only [send]
    cases h : (send t s x).next with
    | ok s' => simp [h2, received_append, vs, ih s']
    | error e => cases e <;> simp [h2, received_append, vs, h3]

/-- Downstream of a counting filter. -/
theorem pushFrom_countFilterOp (i : Nat) (p : α → Except Exc Bool) (t : Net α) (hi : i ∉ t.ids) (xs : List α) :
    ∀ a b (s : St t),
      only t.ids (pushFrom (.countFilter i p t) (.countFilter a b s) xs).trace =
        (pushFrom t s (filterOk p xs)).trace := by
  have hd : ∀ j ∈ [i], j ∉ t.ids := by simpa using hi
  have e0 : ∀ v, only t.ids [.result i v, Ev.closed (α := α) i] = [] :=
    fun v => only_none (ids' := [i]) (by simp [EvsIn, Ev.id]) hd
  have e1 : ∀ x (l : List (Ev α)), only t.ids (.recv i x :: l) = only t.ids l := by
    intro x l; simp [only, Ev.id, hi]
  have oc := fun s => only_self ((inIds t).1 s)
  have os := fun s x => only_self ((inIds t).2 s x)
  induction xs with
  | nil => intro a b s; simp [pushFrom, close, only_append, oc, e0, filterOk]
  | cons x xs ih =>
    intro a b s
    rw [pushFrom_cons]
    simp only [send, filterOk]
    cases hp : p x with
    | error e => cases e <;> simp [e1, only_append, oc, e0, pushFrom]
    | ok v =>
      cases v with
      | false => simp [e1, ih]
      | true =>
        simp only
        rw [pushFrom_cons]
        cases h : (send t s x).next with
        | ok s' => simp [e1, only_append, os, ih]
        | error e => cases e <;> simp [e1, only_append, os, e0]

/-! ### Slices -/

/-- `sel` from the position `off + k` is the stride selection. -/
theorem sel_none (g : Nat) (xs : List α) : ∀ off k,
    sel g k none xs = ((xs.zipIdx off).filter fun p =>
      decide (off + k ≤ p.2) && decide ((p.2 - (off + k)) % (g + 1) = 0)).map Prod.fst := by
  induction xs with
  | nil => intro off k; cases k <;> simp [sel]
  | cons x xs ih =>
    intro off k
    cases k with
    | succ k =>
      have : off + (k + 1) = off + 1 + k := by omega
      rw [sel, this, ih (off + 1) k, List.zipIdx_cons, List.filter_cons_of_neg (by simp; omega)]
    | zero =>
      rw [sel, if_neg (by simp), List.zipIdx_cons, List.filter_cons_of_pos (by simp), List.map_cons]
      rw [Option.map_none, ih (off + 1) g]
      congr 2
      apply List.filter_congr
      intro p hp
      have hge : off + 1 ≤ p.2 := by
        have := List.le_snd_of_mem_zipIdx hp; omega
      rw [Bool.eq_iff_iff]; simp only [Bool.and_eq_true, decide_eq_true_eq, Nat.add_zero]
      constructor
      · rintro ⟨h1, h2⟩
        refine ⟨by omega, ?_⟩
        have : p.2 - off = p.2 - (off + 1 + g) + (g + 1) := by omega
        rw [this, Nat.add_mod_right]; exact h2
      · rintro ⟨h1, h2⟩
        have hlt : off + 1 + g ≤ p.2 := by
          by_contra hc
          have : (p.2 - off) % (g + 1) = p.2 - off := Nat.mod_eq_of_lt (by omega)
          omega
        refine ⟨hlt, ?_⟩
        have : p.2 - off = p.2 - (off + 1 + g) + (g + 1) := by omega
        rw [this, Nat.add_mod_right] at h2; exact h2

theorem sliceIterations_eq_zero {a b g : Nat} : sliceIterations a b g = 0 ↔ b ≤ a := by
  unfold sliceIterations
  rw [Int.toNat_eq_zero]
  constructor
  · intro h
    by_contra hc
    have : (1 : Int) ≤ ((b : Int) - a + g) / ((g : Int) + 1) := by
      rw [Int.le_ediv_iff_mul_le (by omega)]; omega
    omega
  · intro h
    have : ((b : Int) - a + g) / ((g : Int) + 1) < 1 := by
      rw [Int.ediv_lt_iff_lt_mul (by omega)]; omega
    omega

theorem sliceIterations_step {a b g : Nat} (h : a < b) :
    sliceIterations (a + 1 + g) b g = sliceIterations a b g - 1 := by
  unfold sliceIterations
  have : ((b : Int) - ((a + 1 + g : Nat) : Int) + g) = ((b : Int) - a + g) + (-1) * ((g : Int) + 1) := by
    push_cast; ring
  rw [this, Int.add_mul_ediv_right _ _ (by omega)]
  omega

theorem sel_some (g b : Nat) (xs : List α) : ∀ off k,
    sel g k (some (sliceIterations (off + k) b g)) xs = ((xs.zipIdx off).filter fun p =>
      decide (off + k ≤ p.2) && decide ((p.2 - (off + k)) % (g + 1) = 0) && decide (p.2 < b)).map Prod.fst := by
  induction xs with
  | nil => intro off k; cases k <;> simp [sel]
  | cons x xs ih =>
    intro off k
    cases k with
    | succ k =>
      have : off + (k + 1) = off + 1 + k := by omega
      rw [sel, this, ih (off + 1) k, List.zipIdx_cons, List.filter_cons_of_neg (by simp; omega)]
    | zero =>
      simp only [sel, Nat.add_zero, Option.some.injEq, sliceIterations_eq_zero]
      split
      · rename_i hb
        rw [eq_comm, List.map_eq_nil_iff, List.filter_eq_nil_iff]
        intro p hp
        have := List.le_snd_of_mem_zipIdx hp
        simp; omega
      · rename_i hb
        rw [List.zipIdx_cons, List.filter_cons_of_pos (by simp; omega), List.map_cons]
        rw [Option.map_some, ← sliceIterations_step (by omega), ih (off + 1) g]
        congr 2
        apply List.filter_congr
        intro p hp
        have hge : off + 1 ≤ p.2 := by
          have := List.le_snd_of_mem_zipIdx hp; omega
        rw [Bool.eq_iff_iff]; simp only [Bool.and_eq_true, decide_eq_true_eq]
        constructor
        · rintro ⟨⟨h1, h2⟩, h3⟩
          refine ⟨⟨by omega, ?_⟩, h3⟩
          have : p.2 - off = p.2 - (off + 1 + g) + (g + 1) := by omega
          rw [this, Nat.add_mod_right]; exact h2
        · rintro ⟨⟨h1, h2⟩, h3⟩
          have hlt : off + 1 + g ≤ p.2 := by
            by_contra hc
            have : (p.2 - off) % (g + 1) = p.2 - off := Nat.mod_eq_of_lt (by omega)
            omega
          refine ⟨⟨hlt, ?_⟩, h3⟩
          have : p.2 - off = p.2 - (off + 1 + g) + (g + 1) := by omega
          rw [this, Nat.add_mod_right] at h2; exact h2

theorem sel_zero (g : Nat) (xs : List α) : ∀ k, sel g k (some 0) xs = [] := by
  induction xs with
  | nil => intro k; cases k <;> simp [sel]
  | cons x xs ih => intro k; cases k <;> simp [sel, ih]

theorem sel_init (a : Nat) (b : Option Nat) (g : Nat) (xs : List α) :
    sel g (sliceInit a b g).skip (sliceInit a b g).left xs = pySlice a b (g + 1) xs := by
  cases b with
  | none => simpa [sliceInit, pySlice] using sel_none g xs 0 a
  | some b =>
    by_cases h : b ≤ a
    · rw [sliceInit, if_pos h, sliceIterations_eq_zero.2 h]
      simp only [sel_zero, pySlice]
      rw [eq_comm, List.map_eq_nil_iff, List.filter_eq_nil_iff]
      intro p hp; simp; omega
    · rw [sliceInit, if_neg h]
      simpa [pySlice] using sel_some g b xs 0 a

theorem pushFrom_slice_consumed (i a b g) (t : Net α) (xs : List α) :
    ∀ k m (s : St t), (k ≠ 0 ∨ m ≠ 0) →
      (pushFrom (.slice i a b g true t) (.slice ⟨k, some m⟩ s) xs).consumed ≤ k + m * (g + 1) := by
  induction xs with
  | nil => intro k m s _; simp [pushFrom]
  | cons x xs ih =>
    intro k m s hkm
    cases k with
    | succ k =>
      rw [pushFrom_cons, send_slice_skip]
      by_cases h : k = 0 ∧ m = 0
      · simp [sliceResume, h.1, h.2]
      · have h' : ¬ (k = 0 ∧ some m = some 0 ∧ true = true) := by simpa using h
        rw [sliceResume, if_neg h']
        have := ih k m s (by omega)
        show _ + 1 ≤ _
        linarith
    | zero =>
      obtain ⟨m, rfl⟩ : ∃ m', m = m' + 1 := ⟨m - 1, by omega⟩
      rw [pushFrom_cons, send_slice_pass _ _ _ _ _ _ _ _ _ (by simp)]
      cases hn : (send t s x).next with
      | error e => cases e <;> (simp only; nlinarith)
      | ok s' =>
        simp only [Option.map_some, Nat.add_sub_cancel]
        by_cases h : g = 0 ∧ m = 0
        · simp [sliceResume, h.1, h.2]
        · have h' : ¬ (g = 0 ∧ some m = some 0 ∧ true = true) := by simpa using h
          rw [sliceResume, if_neg h']
          have := ih g m s' (by omega)
          show _ + 1 ≤ _
          linarith

end Verif.Dataflow
