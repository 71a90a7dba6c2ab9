import Verif.Spec.Dataflow
/-! Helper lemmas for the dataflow properties: pushing through one component. -/
namespace Verif.Dataflow
variable {α : Type}

theorem pushFrom_nil (n : Net α) (s : St n) : pushFrom n s [] = ⟨close n s, none, 0⟩ := rfl

theorem pushFrom_cons (n : Net α) (s : St n) (x : α) (xs : List α) :
    pushFrom n s (x :: xs) =
      match (send n s x).next with
      | .ok s' => ⟨(send n s x).evs ++ (pushFrom n s' xs).trace, (pushFrom n s' xs).exc,
                    (pushFrom n s' xs).consumed + 1⟩
      | .error .stop => ⟨(send n s x).evs, none, 1⟩
      | .error e => ⟨(send n s x).evs, some e, 1⟩ := rfl

theorem pushFrom_map (i : Nat) (f : α → α) (t : Net α) (xs : List α) :
    ∀ s : St t, pushFrom (.map i (fun x => .ok (f x)) t) (.map s) xs =
      (pushFrom t s (xs.map f)).andClosed i := by
  induction xs with
  | nil => intro s; simp [pushFrom, close, Run.andClosed]
  | cons x xs ih =>
    intro s
    rw [List.map_cons, pushFrom_cons, pushFrom_cons]
    simp only [send]
    cases h : (send t s (f x)).next with
    | ok s' => simp only [ih s', Run.andClosed, List.append_assoc]
    | error e => cases e <;> rfl

theorem pushFrom_mapIn (i : Nat) (f : α → α) (t : Net α) (xs : List α) :
    ∀ s : St t, pushFrom (.mapIn i (fun x => .ok (f x)) t) (.mapIn s) xs =
      (pushFrom t s (xs.map f)).andClosed i := by
  induction xs with
  | nil => intro s; simp [pushFrom, close, Run.andClosed]
  | cons x xs ih =>
    intro s
    rw [List.map_cons, pushFrom_cons, pushFrom_cons]
    simp only [send]
    cases h : (send t s (f x)).next with
    | ok s' => simp only [ih s', Run.andClosed, List.append_assoc]
    | error e => cases e <;> rfl

theorem pushFrom_filter (i : Nat) (p : α → Bool) (t : Net α) (xs : List α) :
    ∀ s : St t,
      (pushFrom (.filter i (fun x => .ok (p x)) t) (.filter s) xs).trace =
        (pushFrom t s (xs.filter p)).trace ++ [.closed i] ∧
      (pushFrom (.filter i (fun x => .ok (p x)) t) (.filter s) xs).exc =
        (pushFrom t s (xs.filter p)).exc := by
  induction xs with
  | nil => intro s; simp [pushFrom, close]
  | cons x xs ih =>
    intro s
    cases hp : p x with
    | false =>
      rw [List.filter_cons_of_neg (by simp [hp]), pushFrom_cons]
      simp only [send, hp]
      simpa using ih s
    | true =>
      rw [List.filter_cons_of_pos hp, pushFrom_cons, pushFrom_cons]
      simp only [send, hp]
      cases h : (send t s x).next with
      | ok s' => simpa using ih s'
      | error e => cases e <;> simp

/-- Pushing `ys ++ zs` is sending the list `ys`, then pushing `zs`. -/
theorem pushFrom_append (t : Net α) (zs : List α) (ys : List α) : ∀ s : St t,
    (∀ s', (sendList (send t) s ys).2 = .ok s' →
      (pushFrom t s (ys ++ zs)).trace = (sendList (send t) s ys).1 ++ (pushFrom t s' zs).trace ∧
      (pushFrom t s (ys ++ zs)).exc = (pushFrom t s' zs).exc) ∧
    (∀ e, (sendList (send t) s ys).2 = .error e →
      (pushFrom t s (ys ++ zs)).trace = (sendList (send t) s ys).1 ∧
      (pushFrom t s (ys ++ zs)).exc = if e = .stop then none else some e) := by
  induction ys with
  | nil => intro s; simp [sendList]
  | cons y ys ih =>
    intro s
    rw [List.cons_append, pushFrom_cons]
    simp only [sendList]
    cases h : (send t s y).next with
    | error e => cases e <;> simp
    | ok s' =>
      have := ih s'
      constructor
      · intro s'' h''
        have := this.1 s'' h''
        simp [this.1, this.2]
      · intro e he
        have := this.2 e he
        simp [this.1, this.2]

theorem pushFrom_flatmap (i : Nat) (f : α → List α) (t : Net α) (xs : List α) :
    ∀ s : St t,
      (pushFrom (.flatmap i (fun x => .ok (f x)) t) (.flatmap s) xs).trace =
        (pushFrom t s (xs.flatMap f)).trace ++ [.closed i] ∧
      (pushFrom (.flatmap i (fun x => .ok (f x)) t) (.flatmap s) xs).exc =
        (pushFrom t s (xs.flatMap f)).exc := by
  induction xs with
  | nil => intro s; simp [pushFrom, close]
  | cons x xs ih =>
    intro s
    rw [List.flatMap_cons, pushFrom_cons]
    simp only [send]
    have key := pushFrom_append t (xs.flatMap f) (f x) s
    cases h : (sendList (send t) s (f x)).2 with
    | ok s' =>
      have k := key.1 s' h
      simp [k.1, k.2, ih s']
    | error e =>
      have k := key.2 e h
      cases e <;> simp [k.1, k.2]

/-! ### `slice` -/

theorem send_slice_skip (i a b g ca) (t : Net α) (k l) (s : St t) (x : α) :
    send (.slice i a b g ca t) (.slice ⟨k + 1, l⟩ s) x = sliceResume i a b g ca t x ⟨k, l⟩ s [] := by
  cases l <;> simp [send]

theorem send_slice_done (i a b g ca) (t : Net α) (s : St t) (x : α) :
    send (.slice i a b g ca t) (.slice ⟨0, some 0⟩ s) x = ⟨x, [], .ok (.slice ⟨0, some 0⟩ s)⟩ := by
  simp [send]

theorem send_slice_pass (i a b g ca) (t : Net α) (l) (s : St t) (x : α) (hl : l ≠ some 0) :
    send (.slice i a b g ca t) (.slice ⟨0, l⟩ s) x =
      match (send t s x).next with
      | .error e => ⟨(send t s x).item, (send t s x).evs ++ [.closed i], .error e⟩
      | .ok s' => sliceResume i a b g ca t (send t s x).item ⟨g, l.map (· - 1)⟩ s' (send t s x).evs := by
  match l, hl with
  | none, _ => simp only [send]; cases (send t s x).next <;> rfl
  | some (m + 1), _ => simp only [send]; cases (send t s x).next <;> rfl

theorem sliceCases (st : SliceSt) :
    (∃ k l, st = ⟨k + 1, l⟩) ∨ st = ⟨0, some 0⟩ ∨ ∃ l, l ≠ some 0 ∧ st = ⟨0, l⟩ := by
  obtain ⟨k, l⟩ := st
  cases k with
  | succ k => exact Or.inl ⟨k, l, rfl⟩
  | zero =>
    by_cases h : l = some 0
    · subst h; exact Or.inr (Or.inl rfl)
    · exact Or.inr (Or.inr ⟨l, h, rfl⟩)

/-- Items handed on by a `slice` generator from state `(skip, left)`. -/
def sel (gap : Nat) : Nat → Option Nat → List α → List α
  | _, _, [] => []
  | k + 1, l, _ :: xs => sel gap k l xs
  | 0, l, x :: xs => if l = some 0 then [] else x :: sel gap gap (l.map (· - 1)) xs

theorem sel_done (gap : Nat) (xs : List α) : sel gap 0 (some 0) xs = [] := by
  cases xs <;> simp [sel]

theorem pushFrom_slice_done (i a b g) (t : Net α) (s : St t) (ca : Bool) (xs : List α) :
    (pushFrom (.slice i a b g ca t) (.slice ⟨0, some 0⟩ s) xs).trace = close t s ++ [.closed i] ∧
    (pushFrom (.slice i a b g ca t) (.slice ⟨0, some 0⟩ s) xs).exc = none := by
  induction xs with
  | nil => simp [pushFrom, close]
  | cons x xs ih =>
    rw [pushFrom_cons]
    simp only [send_slice_done]
    simpa using ih

theorem pushFrom_slice (i a b g ca) (t : Net α) (xs : List α) :
    ∀ (st : SliceSt) (s : St t),
      (pushFrom (.slice i a b g ca t) (.slice st s) xs).trace =
        (pushFrom t s (sel g st.skip st.left xs)).trace ++ [.closed i] ∧
      (pushFrom (.slice i a b g ca t) (.slice st s) xs).exc =
        (pushFrom t s (sel g st.skip st.left xs)).exc := by
  induction xs with
  | nil => intro st s; simp [pushFrom, close, sel]
  | cons x xs ih =>
    intro st s
    rcases sliceCases st with ⟨k, l, rfl⟩ | rfl | ⟨l, hl, rfl⟩
    · rw [pushFrom_cons, send_slice_skip]
      by_cases h : k = 0 ∧ l = some 0 ∧ ca = true
      · rw [sliceResume, if_pos h]
        simp [sel, h, sel_done, pushFrom]
      · rw [sliceResume, if_neg h]
        simpa [sel] using ih ⟨k, l⟩ s
    · simpa [sel_done, pushFrom] using pushFrom_slice_done i a b g t s ca (x :: xs)
    · rw [pushFrom_cons, send_slice_pass _ _ _ _ _ _ _ _ _ hl]
      simp only [sel, hl, if_false]
      rw [pushFrom_cons]
      cases hn : (send t s x).next with
      | error e => cases e <;> simp
      | ok s' =>
        by_cases h : g = 0 ∧ l.map (· - 1) = some 0 ∧ ca = true
        · simp only [sliceResume, if_pos h]
          simp [h.1, h.2.1, sel_done, pushFrom]
        · simp only [sliceResume, if_neg h]
          simpa using ih ⟨g, l.map (· - 1)⟩ s'

end Verif.Dataflow
