import Verif.Lemmas.DataflowOps
import Verif.Lemmas.DataflowLife
import Verif.Props.DataflowFork
import Verif.Props.DataflowPipe
/-!
# What a network does with one item when nothing raises

`step n x` is the item as the network leaves it and the list of deliveries `(component, item)` in order; `none` if some function raises.  No state is involved: for networks without
`slice` the deliveries of a run are those of its items one after the other.
-/
namespace Verif.Dataflow
variable {α : Type}

/-- The deliveries of several items sent one after the other. -/
def stepAll (f : α → Option (α × List (Nat × α))) : List α → Option (List (Nat × α))
  | [] => some []
  | y :: ys => match f y with
    | none => none
    | some r => match stepAll f ys with
      | none => none
      | some d => some (r.2 ++ d)

/-- The deliveries of several updates of one item. -/
def stepUpd (f : α → Option (α × List (Nat × α))) (x : α) : List (α → α) → Option (α × List (Nat × α))
  | [] => some (x, [])
  | u :: us => match f (u x) with
    | none => none
    | some r => match stepUpd f r.1 us with
      | none => none
      | some d => some (d.1, r.2 ++ d.2)

mutual
/-- What a network does with an item. -/
def step : Net α → α → Option (α × List (Nat × α))
  | .sink i eff, x => match eff x with
    | none => some (x, [(i, x)])
    | some _ => none
  | .reduce i _ _, x => some (x, [(i, x)])
  | .count i, x => some (x, [(i, x)])
  | .map _ op t, x => match op x with
    | .error _ => none
    | .ok y => match step t y with
      | none => none
      | some r => some (x, r.2)
  | .mapIn _ op t, x => match op x with
    | .error _ => none
    | .ok y => step t y
  | .flatmap _ op t, x => match op x with
    | .error _ => none
    | .ok ys => match stepAll (step t) ys with
      | none => none
      | some d => some (x, d)
  | .flatmapIn _ op t, x => match op x with
    | .error _ => none
    | .ok us => stepUpd (step t) x us
  | .filter _ p t, x => match p x with
    | .error _ => none
    | .ok false => some (x, [])
    | .ok true => step t x
  | .countFilter i p t, x => match p x with
    | .error _ => none
    | .ok false => some (x, [(i, x)])
    | .ok true => match step t x with
      | none => none
      | some r => some (r.1, (i, x) :: r.2)
  | .spy i eff t, x => match eff x with
    | some _ => none
    | none => match step t x with
      | none => none
      | some r => some (r.1, (i, x) :: r.2)
  | .branch _ a b, x => match step a x with
    | none => none
    | some r => match step b r.1 with
      | none => none
      | some q => some (q.1, r.2 ++ q.2)
  | .fork _ ts, x => steps ts x
  | .slice _ _ _ _ _ _, _ => none
/-- Same, for the targets of a fork. -/
def steps : Nets α → α → Option (α × List (Nat × α))
  | .nil, x => some (x, [])
  | .cons t ts, x => match step t x with
    | none => none
    | some r => match steps ts r.1 with
      | none => none
      | some q => some (q.1, r.2 ++ q.2)
end

mutual
/-- The updates of the `reduce` components never raise. -/
def Net.Sums : Net α → Prop
  | .sink _ _ => True
  | .reduce _ upd _ => ∀ a x, ∃ b, upd a x = .ok b
  | .count _ => True
  | .map _ _ t => t.Sums
  | .mapIn _ _ t => t.Sums
  | .flatmap _ _ t => t.Sums
  | .flatmapIn _ _ t => t.Sums
  | .filter _ _ t => t.Sums
  | .countFilter _ _ t => t.Sums
  | .spy _ _ t => t.Sums
  | .branch _ a b => a.Sums ∧ b.Sums
  | .fork _ ts => ts.Sums
  | .slice _ _ _ _ _ t => t.Sums
/-- Same, for the targets of a fork. -/
def Nets.Sums : Nets α → Prop
  | .nil => True
  | .cons t ts => t.Sums ∧ ts.Sums
end

/-- The deliveries as events. -/
def evsOf (d : List (Nat × α)) : List (Ev α) := d.map fun p => .recv p.1 p.2

theorem evsOf_append (a b : List (Nat × α)) : evsOf (a ++ b) = evsOf a ++ evsOf b := List.map_append

theorem sendList_step {t : Net α} (h : ∀ s x y d, step t x = some (y, d) → ∃ s', send t s x = ⟨y, evsOf d, .ok s'⟩) : ∀ (ys : List α) s d,
    stepAll (step t) ys = some d → ∃ s', sendList (send t) s ys = (evsOf d, .ok s') := by
  intro ys
  induction ys with
  | nil => intro s d hd; cases hd; exact ⟨s, rfl⟩
  | cons y ys ih =>
    intro s d hd
    simp only [stepAll] at hd
    cases h1 : step t y with
    | none => rw [h1] at hd; cases hd
    | some r =>
      rw [h1] at hd
      cases h2 : stepAll (step t) ys with
      | none => rw [h2] at hd; cases hd
      | some e =>
        rw [h2] at hd
        cases hd
        obtain ⟨s1, e1⟩ := h s y r.1 r.2 h1
        obtain ⟨s2, e2⟩ := ih s1 e h2
        exact ⟨s2, by simp [sendList, e1, e2, evsOf_append]⟩

theorem sendUpd_step {t : Net α} (h : ∀ s x y d, step t x = some (y, d) → ∃ s', send t s x = ⟨y, evsOf d, .ok s'⟩) : ∀ (us : List (α → α)) s x y d,
    stepUpd (step t) x us = some (y, d) → ∃ s', sendUpd (send t) s x us = ⟨y, evsOf d, .ok s'⟩ := by
  intro us
  induction us with
  | nil => intro s x y d hd; cases hd; exact ⟨s, rfl⟩
  | cons u us ih =>
    intro s x y d hd
    simp only [stepUpd] at hd
    cases h1 : step t (u x) with
    | none => rw [h1] at hd; cases hd
    | some r =>
      simp only [h1] at hd
      cases h2 : stepUpd (step t) r.1 us with
      | none => simp [h2] at hd
      | some e =>
        simp only [h2] at hd
        cases hd
        obtain ⟨s1, e1⟩ := h s (u x) r.1 r.2 h1
        obtain ⟨s2, e2⟩ := ih s1 r.1 e.1 e.2 h2
        exact ⟨s2, by simp [sendUpd, e1, e2, evsOf_append]⟩

mutual
/-- One `send` of an item on which nothing raises. -/
theorem send_step : (n : Net α) → n.Sums → ∀ s x y d, step n x = some (y, d) → ∃ s', send n s x = ⟨y, evsOf d, .ok s'⟩
  | .sink i eff, _, s, x, y, d, h => by
    simp only [step] at h
    cases he : eff x with
    | some e => rw [he] at h; cases h
    | none => rw [he] at h; cases h; exact ⟨.sink, by simp [send, he, evsOf]⟩
  | .reduce i upd a, hs, .reduce acc, x, y, d, h => by
    obtain ⟨b, hb⟩ := hs acc x
    cases h
    exact ⟨.reduce b, by simp [send, hb, evsOf]⟩
  | .count i, _, .count k, x, y, d, h => by cases h; exact ⟨.count (k + 1), rfl⟩
  | .map i op t, hs, .map s, x, y, d, h => by
    simp only [step] at h
    cases he : op x with
    | error e => rw [he] at h; cases h
    | ok z =>
      rw [he] at h
      cases h1 : step t z with
      | none => simp [h1] at h
      | some r =>
        simp only [h1] at h
        cases h
        obtain ⟨s1, e1⟩ := send_step t hs s z r.1 r.2 h1
        exact ⟨.map s1, by simp [send, he, e1]⟩
  | .mapIn i op t, hs, .mapIn s, x, y, d, h => by
    simp only [step] at h
    cases he : op x with
    | error e => rw [he] at h; cases h
    | ok z =>
      rw [he] at h
      obtain ⟨s1, e1⟩ := send_step t hs s z y d h
      exact ⟨.mapIn s1, by simp [send, he, e1]⟩
  | .flatmap i op t, hs, .flatmap s, x, y, d, h => by
    simp only [step] at h
    cases he : op x with
    | error e => rw [he] at h; cases h
    | ok ys =>
      rw [he] at h
      cases h1 : stepAll (step t) ys with
      | none => simp [h1] at h
      | some e =>
        simp only [h1] at h
        cases h
        obtain ⟨s1, e1⟩ := sendList_step (send_step t hs) ys s _ h1
        exact ⟨.flatmap s1, by simp [send, he, e1]⟩
  | .flatmapIn i op t, hs, .flatmapIn s, x, y, d, h => by
    simp only [step] at h
    cases he : op x with
    | error e => rw [he] at h; cases h
    | ok us =>
      rw [he] at h
      obtain ⟨s1, e1⟩ := sendUpd_step (send_step t hs) us s x y d h
      exact ⟨.flatmapIn s1, by simp [send, he, e1]⟩
  | .filter i p t, hs, .filter s, x, y, d, h => by
    simp only [step] at h
    cases he : p x with
    | error e => rw [he] at h; cases h
    | ok b =>
      cases b with
      | false => rw [he] at h; cases h; exact ⟨.filter s, by simp [send, he, evsOf]⟩
      | true =>
        rw [he] at h
        obtain ⟨s1, e1⟩ := send_step t hs s x y d h
        exact ⟨.filter s1, by simp [send, he, e1]⟩
  | .countFilter i p t, hs, .countFilter np nf s, x, y, d, h => by
    simp only [step] at h
    cases he : p x with
    | error e => rw [he] at h; cases h
    | ok b =>
      cases b with
      | false => rw [he] at h; cases h; exact ⟨.countFilter np (nf + 1) s, by simp [send, he, evsOf]⟩
      | true =>
        rw [he] at h
        cases h1 : step t x with
        | none => simp [h1] at h
        | some r =>
          simp only [h1] at h
          cases h
          obtain ⟨s1, e1⟩ := send_step t hs s x r.1 r.2 h1
          exact ⟨.countFilter (np + 1) nf s1, by simp [send, he, e1, evsOf]⟩
  | .spy i eff t, hs, .spy s, x, y, d, h => by
    simp only [step] at h
    cases he : eff x with
    | some e => rw [he] at h; cases h
    | none =>
      rw [he] at h
      cases h1 : step t x with
      | none => simp [h1] at h
      | some r =>
        simp only [h1] at h
        cases h
        obtain ⟨s1, e1⟩ := send_step t hs s x r.1 r.2 h1
        exact ⟨.spy s1, by simp [send, he, e1, evsOf]⟩
  | .branch i a b, hs, .branch sa sb, x, y, d, h => by
    simp only [step] at h
    cases h1 : step a x with
    | none => simp [h1] at h
    | some r =>
      simp only [h1] at h
      cases h2 : step b r.1 with
      | none => simp [h2] at h
      | some q =>
        simp only [h2] at h
        cases h
        obtain ⟨s1, e1⟩ := send_step a hs.1 sa x r.1 r.2 h1
        obtain ⟨s2, e2⟩ := send_step b hs.2 sb r.1 q.1 q.2 h2
        exact ⟨.branch s1 s2, by simp [send, e1, e2, evsOf_append]⟩
  | .fork i ts, hs, .fork ss, x, y, d, h => by
    obtain ⟨s1, e1⟩ := sends_step ts hs ss x y d h
    exact ⟨.fork s1, by simp [send, e1]⟩
  | .slice .., _, _, _, _, _, h => by cases h
/-- Same, for the targets of a fork. -/
theorem sends_step : (ts : Nets α) → ts.Sums → ∀ ss x y d, steps ts x = some (y, d) → ∃ ss', sends ts ss x = (y, evsOf d, .ok ss')
  | .nil, _, .nil, x, y, d, h => by cases h; exact ⟨.nil, rfl⟩
  | .cons t ts, hs, .cons s ss, x, y, d, h => by
    simp only [steps] at h
    cases h1 : step t x with
    | none => simp [h1] at h
    | some r =>
      simp only [h1] at h
      cases h2 : steps ts r.1 with
      | none => simp [h2] at h
      | some q =>
        simp only [h2] at h
        cases h
        obtain ⟨s1, e1⟩ := send_step t hs.1 s x r.1 r.2 h1
        obtain ⟨s2, e2⟩ := sends_step ts hs.2 ss r.1 q.1 q.2 h2
        exact ⟨.cons s1 s2, by simp [sends, e1, e2, evsOf_append]⟩
end

/-- What the component `j` receives of an item. -/
def feeds (j : Nat) (n : Net α) (x : α) : List α :=
  match step n x with
  | none => []
  | some r => (r.2.filter fun p => p.1 == j).map Prod.snd

theorem received_evsOf (j : Nat) (d : List (Nat × α)) : received j (evsOf d) = (d.filter fun p => p.1 == j).map Prod.snd := by
  induction d with
  | nil => rfl
  | cons p d ih =>
    rw [evsOf, List.map_cons, ← evsOf]
    by_cases h : p.1 = j
    · simp [received, h] at ih ⊢; exact ih
    · simp [received, h] at ih ⊢; exact ih

theorem received_noRecv {tr : List (Ev α)} (h : NoRecv tr) (j : Nat) : received j tr = [] := by
  unfold received
  rw [List.filterMap_eq_nil_iff]
  intro e he
  cases e with
  | recv i x => exact absurd rfl (h _ he i x)
  | result i v => rfl
  | closed i => rfl

theorem pushFrom_step (n : Net α) (hs : n.Sums) : ∀ (xs : List α) (s : St n), (∀ x ∈ xs, (step n x).isSome = true) →
    (pushFrom n s xs).exc = none ∧ (∀ j, received j (pushFrom n s xs).trace = xs.flatMap (feeds j n)) := by
  intro xs
  induction xs with
  | nil => intro s _; exact ⟨rfl, fun j => received_noRecv (close_noRecv n s) j⟩
  | cons x xs ih =>
    intro s h
    obtain ⟨r, hr⟩ := Option.isSome_iff_exists.1 (h x List.mem_cons_self)
    obtain ⟨s', e⟩ := send_step n hs s x r.1 r.2 hr
    obtain ⟨h1, h2⟩ := ih s' fun z hz => h z (List.mem_cons_of_mem _ hz)
    have hn : (send n s x).next = .ok s' := by rw [e]
    rw [pushFrom_cons_ok n s s' x xs hn]
    refine ⟨h1, fun j => ?_⟩
    rw [received_append, h2 j, List.flatMap_cons, e]
    congr 1
    rw [received_evsOf, feeds, hr]

/-- A pipe that starts with a slice: the run raises nothing and each component receives what the items in the range give it. -/
theorem sliced_run (i start : Nat) (stop : Option Nat) (gap : Nat) (ca : Bool) (n : Net α) (hs : n.Sums) (xs : List α)
    (h : ∀ x ∈ pySlice start stop (gap + 1) xs, (step n x).isSome = true) :
    (push xs (.slice i start stop gap ca n)).exc = none ∧
    ∀ j, received j (push xs (.slice i start stop gap ca n)).trace = (pySlice start stop (gap + 1) xs).flatMap (feeds j n) := by
  obtain ⟨h1, h2⟩ := slice_selects i start stop gap ca n xs
  obtain ⟨h3, h4⟩ := pushFrom_step n hs _ (init n) h
  refine ⟨by rw [h2]; exact h3, fun j => ?_⟩
  rw [h1, received_append]
  have : received j [Ev.closed (α := α) i] = [] := rfl
  rw [this, List.append_nil]
  exact h4 j

end Verif.Dataflow
