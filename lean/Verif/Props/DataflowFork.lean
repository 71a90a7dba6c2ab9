import Verif.Lemmas.DataflowFork
/-!
# C02: fork and branch deliver every item to every target, in the declared order

Targets are arbitrary networks whose user functions may raise at any item.  Targets that write into
the item they receive (`args/out` components) are excluded here (`readOnly`): for those see C06.
-/
namespace Verif.Dataflow
variable {α : Type}

/-- **C02** (fork) Either no target raised: the whole source was consumed and each target behaved as
if it had been alone with the source.  Or target number `j` raised on the last item consumed: `push`
ends exactly as the run of target `j` alone would, the targets up to `j` have been handed all the
consumed items, and the targets after `j` all of them but the last one. -/
theorem fork_delivery (i : Nat) (ts : Nets α) (hr : ts.readOnly = true) (hn : (Net.fork i ts).ids.Nodup)
    (xs : List α) :
    let r := push xs (.fork i ts)
    (r.consumed = xs.length ∧ r.exc = none ∧
      ∀ t k, Target t k ts → only t.ids r.trace = (push xs t).trace) ∨
    (∃ j tj, Target tj j ts ∧ r.exc = (push xs tj).exc ∧ r.consumed = (push xs tj).consumed ∧ 0 < r.consumed ∧
      ∀ t k, Target t k ts →
        only t.ids r.trace = (push (xs.take (if k ≤ j then r.consumed else r.consumed - 1)) t).trace) := by
  have huniq : ∀ {t : Net α} {ts : Nets α} {ss : Sts ts} {j s1 s2}, TargetSt t s1 j ts ss → TargetSt t s2 j ts ss → s1 = s2 := by
    intro t ts ss j s1 s2 h1 h2
    induction h1 with
    | head => cases h2; rfl
    | tail _ ih => cases h2; exact ih (by assumption)
  have h := pushFrom_fork hr hn xs (inits ts)
  simp only [push, init]
  rcases h with ⟨a1, a2, a3⟩ | ⟨j, tj, sj, b1, b2, b3, b4, b5⟩
  · exact Or.inl ⟨a1, a2, fun t k hk => a3 (inits_target hk)⟩
  · right
    have hsj : sj = init tj := huniq b1 (inits_target b1.target)
    subst hsj
    exact ⟨j, tj, b1.target, b2, b3, b4, fun t k hk => b5 (inits_target hk)⟩

theorem deliveries_append (ids : List Nat) (a b : List (Ev α)) :
    deliveries ids (a ++ b) = deliveries ids a ++ deliveries ids b := by simp [deliveries]

theorem deliveries_none {ids ids' : List Nat} {a : List (Ev α)} (h : EvsIn ids' a) (hd : ∀ j ∈ ids', j ∉ ids) :
    deliveries ids a = [] := by
  simp only [deliveries, List.filter_eq_nil_iff]
  intro e he
  have := hd _ (h e he)
  cases e <;> simp_all [Ev.id]

/-- No item is handed over while closing. -/
def NoRecv (evs : List (Ev α)) : Prop := ∀ e ∈ evs, ∀ i x, e ≠ .recv i x

theorem NoRecv.append {a b : List (Ev α)} (ha : NoRecv a) (hb : NoRecv b) : NoRecv (a ++ b) := by
  intro e he; rcases List.mem_append.1 he with h | h
  · exact ha e h
  · exact hb e h

mutual
theorem close_noRecv : (n : Net α) → ∀ s, NoRecv (close n s)
  | .sink i eff, s => by intro e; simp [close]; rintro rfl; simp
  | .reduce i u a, .reduce _ => by intro e; simp [close]; rintro (rfl | rfl) <;> simp
  | .count i, .count _ => by intro e; simp [close]; rintro (rfl | rfl) <;> simp
  | .map i op t, .map s => by rw [close]; exact (close_noRecv t s).append (by intro e; simp; rintro rfl; simp)
  | .mapIn i op t, .mapIn s => by rw [close]; exact (close_noRecv t s).append (by intro e; simp; rintro rfl; simp)
  | .flatmap i op t, .flatmap s => by rw [close]; exact (close_noRecv t s).append (by intro e; simp; rintro rfl; simp)
  | .flatmapIn i op t, .flatmapIn s => by rw [close]; exact (close_noRecv t s).append (by intro e; simp; rintro rfl; simp)
  | .filter i op t, .filter s => by rw [close]; exact (close_noRecv t s).append (by intro e; simp; rintro rfl; simp)
  | .countFilter i op t, .countFilter _ _ s => by
    rw [close]; exact (close_noRecv t s).append (by intro e; simp; rintro (rfl | rfl) <;> simp)
  | .spy i op t, .spy s => by rw [close]; exact (close_noRecv t s).append (by intro e; simp; rintro rfl; simp)
  | .slice i a b g ca t, .slice _ s => by rw [close]; exact (close_noRecv t s).append (by intro e; simp; rintro rfl; simp)
  | .branch i a b, .branch sa sb => by
    rw [close]; exact ((close_noRecv b sb).append (close_noRecv a sa)).append (by intro e; simp; rintro rfl; simp)
  | .fork i ts, .fork ss => by rw [close]; exact (closes_noRecv ts ss).append (by intro e; simp; rintro rfl; simp)
theorem closes_noRecv : (ts : Nets α) → ∀ ss, NoRecv (closes ts ss)
  | .nil, _ => by intro e; simp [closes]
  | .cons t ts, .cons s ss => by rw [closes]; exact (close_noRecv t s).append (closes_noRecv ts ss)
end

theorem NoRecv.deliveries {evs : List (Ev α)} (h : NoRecv evs) (ids : List Nat) : deliveries ids evs = [] := by
  simp only [Dataflow.deliveries, List.filter_eq_nil_iff]
  intro e he
  cases e with
  | recv i x => exact absurd rfl (h _ he i x)
  | _ => simp

theorem sends_err_noRecv : (ts : Nets α) → ∀ {ss x e cl}, (sends ts ss x).2.2 = .error (e, cl) → NoRecv cl
  | .nil, ss, x, e, cl, h => by simp [sends] at h
  | .cons t ts, .cons s ss, x, e, cl, h => by
    simp only [sends] at h
    cases h1 : (send t s x).next with
    | error e' => simp only [h1, Except.error.injEq, Prod.mk.injEq] at h; rw [← h.2]; exact closes_noRecv ts ss
    | ok s' =>
      simp only [h1] at h
      cases h2 : (sends ts ss (send t s x).item).2.2 with
      | ok q => simp [h2] at h
      | error q =>
        obtain ⟨e', cl'⟩ := q
        simp only [h2, Except.error.injEq, Prod.mk.injEq] at h
        rw [← h.2]; exact (close_noRecv t s').append (sends_err_noRecv ts h2)

/-- Deliveries to one sink during one item. -/
theorem sends_deliveries_one {b : Nat} {eb : α → Option Exc} {ids : List Nat} :
    ∀ {k : Nat} {ts : Nets α}, Target (.sink b eb) k ts → ts.readOnly = true → ts.ids.Nodup → b ∈ ids →
      (∀ j ∈ ids, j ∈ ts.ids → j = b) → ∀ (ss : Sts ts) (x : α),
      (∀ ss', (sends ts ss x).2.2 = .ok ss' → deliveries ids (sends ts ss x).2.1 = [.recv b x]) ∧
      (deliveries ids (sends ts ss x).2.1 = [] ∨ deliveries ids (sends ts ss x).2.1 = [.recv b x]) := by
  intro k ts hk
  induction hk with
  | @head ts =>
    intro hr hn hb huniq ss x
    cases ss with
    | cons s ss =>
    simp only [Nets.ids, Net.ids, List.nodup_append] at hn huniq
    have hd : ∀ j ∈ ts.ids, j ∉ ids := by
      intro j hj hji
      have := huniq j hji (by simp [hj])
      subst this
      exact hn.2.2 j (by simp) j hj rfl
    have h0 : ∀ y, deliveries ids (sends ts ss y).2.1 = [] := fun y => deliveries_none ((inIdsS ts).2 ss y).1 hd
    have h1 : deliveries ids (send (.sink b eb) s x).evs = [.recv b x] := by
      simp only [send]; split <;> simp [deliveries, hb]
    simp only [sends]
    cases hx : (send (.sink b eb) s x).next with
    | error e => simp [h1]
    | ok s' =>
      simp only
      cases h2 : (sends ts ss (send (.sink b eb) s x).item).2.2 with
      | ok q => simp [deliveries_append, h0, h1]
      | error q => simp [deliveries_append, h0, h1]
  | @tail k t' ts hk ih =>
    intro hr hn hb huniq ss x
    cases ss with
    | cons s ss =>
    simp only [Nets.ids, List.nodup_append, List.mem_append] at hn huniq
    simp only [Nets.readOnly, Bool.and_eq_true] at hr
    have hbts : b ∈ ts.ids := hk.ids_sub b (by simp [Net.ids])
    have hd : ∀ j ∈ t'.ids, j ∉ ids := by
      intro j hj hji
      have := huniq j hji (Or.inl hj)
      subst this
      exact hn.2.2 j hj j hbts rfl
    have h0 : deliveries ids (send t' s x).evs = [] := deliveries_none ((inIds t').2 s x) hd
    have ih' := ih hr.2 hn.2.1 hb (fun j h1 h2 => huniq j h1 (Or.inr h2)) ss x
    have hitem := send_item t' hr.1 s x
    simp only [sends]
    cases hx : (send t' s x).next with
    | error e => simp [h0]
    | ok s' =>
      simp only [hitem]
      cases h2 : (sends ts ss x).2.2 with
      | ok q =>
        have := ih'.1 q h2
        simp [deliveries_append, h0, this]
      | error q =>
        simp only [deliveries_append, h0, List.nil_append]
        exact ⟨by simp, ih'.2⟩

/-- Deliveries to two sinks during one item. -/
theorem sends_deliveries_two {a b : Nat} {ea eb : α → Option Exc} :
    ∀ {k k' : Nat} {ts : Nets α}, Target (.sink a ea) k ts → Target (.sink b eb) k' ts → k < k' →
      ts.readOnly = true → ts.ids.Nodup → ∀ (ss : Sts ts) (x : α),
      (∀ ss', (sends ts ss x).2.2 = .ok ss' → deliveries [a, b] (sends ts ss x).2.1 = [.recv a x, .recv b x]) ∧
      (deliveries [a, b] (sends ts ss x).2.1 = [] ∨ deliveries [a, b] (sends ts ss x).2.1 = [.recv a x] ∨
        deliveries [a, b] (sends ts ss x).2.1 = [.recv a x, .recv b x]) := by
  intro k k' ts hk
  induction hk generalizing k' with
  | @head ts =>
    intro hk' hlt hr hn ss x
    cases hk' with
    | head => omega
    | @tail k' _ _ hk' =>
    cases ss with
    | cons s ss =>
    simp only [Nets.ids, Net.ids, List.nodup_append] at hn
    simp only [Nets.readOnly, Bool.and_eq_true] at hr
    have ha : a ∉ ts.ids := fun h => hn.2.2 a (by simp) a h rfl
    have h1 : deliveries [a, b] (send (.sink a ea) s x).evs = [.recv a x] := by
      simp only [send]; split <;> simp [deliveries]
    have hitem := send_item (.sink a ea) hr.1 s x
    have ih := sends_deliveries_one (ids := [a, b]) hk' hr.2 hn.2.1 (by simp)
      (by intro j h1 h2; simp at h1; rcases h1 with rfl | h; exact absurd h2 ha; exact h) ss x
    simp only [sends]
    cases hx : (send (.sink a ea) s x).next with
    | error e => simp [h1]
    | ok s' =>
      simp only [hitem]
      cases h2 : (sends ts ss x).2.2 with
      | ok q =>
        have := ih.1 q h2
        simp [deliveries_append, h1, this]
      | error q =>
        simp only [deliveries_append, h1]
        refine ⟨by simp, ?_⟩
        rcases ih.2 with h | h <;> simp [h]
  | @tail k t' ts hk ih =>
    intro hk' hlt hr hn ss x
    cases hk' with
    | head => omega
    | @tail k' _ _ hk' =>
    cases ss with
    | cons s ss =>
    simp only [Nets.ids, List.nodup_append] at hn
    simp only [Nets.readOnly, Bool.and_eq_true] at hr
    have hats : a ∈ ts.ids := hk.ids_sub a (by simp [Net.ids])
    have hbts : b ∈ ts.ids := hk'.ids_sub b (by simp [Net.ids])
    have hd : ∀ j ∈ t'.ids, j ∉ [a, b] := by
      intro j hj hji
      simp at hji
      rcases hji with rfl | rfl
      · exact hn.2.2 j hj j hats rfl
      · exact hn.2.2 j hj j hbts rfl
    have h0 : deliveries [a, b] (send t' s x).evs = [] := deliveries_none ((inIds t').2 s x) hd
    have ih' := ih hk' (by omega) hr.2 hn.2.1 ss x
    have hitem := send_item t' hr.1 s x
    simp only [sends]
    cases hx : (send t' s x).next with
    | error e => simp [h0]
    | ok s' =>
      simp only [hitem]
      cases h2 : (sends ts ss x).2.2 with
      | ok q =>
        have := ih'.1 q h2
        simp [deliveries_append, h0, this]
      | error q =>
        simp only [deliveries_append, h0, List.nil_append]
        exact ⟨by simp, ih'.2⟩

/-- **C02** (order) Two sinks among the targets of a fork, `a` listed before `b`: items are delivered
to them alternately, `a` first, for each item in source order; only `b` may miss the last item (when
a target raised in between). -/
theorem fork_order (i : Nat) (ts : Nets α) (hr : ts.readOnly = true) (hn : (Net.fork i ts).ids.Nodup)
    {a b k k' : Nat} {ea eb : α → Option Exc}
    (ha : Target (.sink a ea) k ts) (hb : Target (.sink b eb) k' ts) (hlt : k < k') (xs : List α) :
    ∃ m ≤ xs.length,
      deliveries [a, b] (push xs (.fork i ts)).trace = (xs.take m).flatMap (fun x => [.recv a x, .recv b x]) ∨
      ∃ x, xs[m]? = some x ∧
        deliveries [a, b] (push xs (.fork i ts)).trace =
          (xs.take m).flatMap (fun x => [.recv a x, .recv b x]) ++ [.recv a x] := by
  have hn' := hn
  simp only [Net.ids, List.nodup_cons] at hn'
  simp only [push, init]
  generalize inits ts = ss
  induction xs generalizing ss with
  | nil =>
    refine ⟨0, by simp, Or.inl ?_⟩
    have : NoRecv (close (.fork i ts) (.fork ss)) := close_noRecv _ _
    simpa [pushFrom] using this.deliveries _
  | cons x xs ih =>
    have hs := sends_deliveries_two ha hb hlt hr hn'.2 ss x
    cases h1 : (sends ts ss x).2.2 with
    | ok ss' =>
      have hsend : (send (.fork i ts) (.fork ss) x).next = .ok (.fork ss') := by simp [send, h1]
      have hevs : (send (.fork i ts) (.fork ss) x).evs = (sends ts ss x).2.1 := by simp [send, h1]
      rw [pushFrom_cons_ok _ _ _ _ _ hsend, hevs, deliveries_append, hs.1 ss' h1]
      obtain ⟨m, hm, h | ⟨y, hy, h⟩⟩ := ih ss'
      · exact ⟨m + 1, by simp; omega, Or.inl (by simp [h])⟩
      · exact ⟨m + 1, by simp; omega, Or.inr ⟨y, by simpa using hy, by simp [h]⟩⟩
    | error q =>
      obtain ⟨e, cl⟩ := q
      have hsend : (send (.fork i ts) (.fork ss) x).next = .error e := by simp [send, h1]
      have hevs : (send (.fork i ts) (.fork ss) x).evs = (sends ts ss x).2.1 ++ (cl ++ [.closed i]) := by simp [send, h1]
      have hno : NoRecv (cl ++ [Ev.closed i]) :=
        (sends_err_noRecv ts h1).append (by intro e; simp; rintro rfl; simp)
      rw [pushFrom_cons_err _ _ _ _ _ hsend, hevs, deliveries_append, hno.deliveries, List.append_nil]
      rcases hs.2 with h | h | h
      · exact ⟨0, by simp, Or.inl (by simp [h])⟩
      · exact ⟨0, by simp, Or.inr ⟨x, by simp, by simp [h]⟩⟩
      · exact ⟨1, by simp, Or.inl (by simp [h])⟩

/-! ### branch -/

/-- A `branch` and a `fork` with two targets differ only in the order in which they close. -/
theorem pushFrom_branch (i : Nat) (a b : Net α) (hn : (Net.branch i a b).ids.Nodup) (xs : List α) :
    ∀ sa sb,
      let r := pushFrom (.branch i a b) (.branch sa sb) xs
      let q := pushFrom (.fork i (.cons a (.cons b .nil))) (.fork (.cons sa (.cons sb .nil))) xs
      r.exc = q.exc ∧ r.consumed = q.consumed ∧
      only a.ids r.trace = only a.ids q.trace ∧ only b.ids r.trace = only b.ids q.trace ∧
      ∀ ids, deliveries ids r.trace = deliveries ids q.trace := by
  simp only [Net.ids, List.nodup_cons, List.mem_append, List.nodup_append] at hn
  have dab : ∀ j ∈ b.ids, j ∉ a.ids := fun j hb ha => hn.2.2.2 j ha j hb rfl
  have dba : ∀ j ∈ a.ids, j ∉ b.ids := fun j ha hb => hn.2.2.2 j ha j hb rfl
  have ca : ∀ s, only b.ids (close a s) = [] := fun s => only_none ((inIds a).1 s) dba
  have cb : ∀ s, only a.ids (close b s) = [] := fun s => only_none ((inIds b).1 s) dab
  have na : ∀ s ids, deliveries ids (close a s) = [] := fun s => (close_noRecv a s).deliveries
  have nb : ∀ s ids, deliveries ids (close b s) = [] := fun s => (close_noRecv b s).deliveries
  induction xs with
  | nil =>
    intro sa sb
    simp [pushFrom, close, closes, only_append, ca, cb, na, nb, deliveries_append]
  | cons x xs ih =>
    intro sa sb
    simp only [pushFrom, send, sends]
    cases h1 : (send a sa x).next with
    | error e => cases e <;> simp [only_append, deliveries_append, cb, nb, closes]
    | ok sa' =>
      simp only
      cases h2 : (send b sb (send a sa x).item).next with
      | ok sb' =>
        have := ih sa' sb'
        simp [only_append, deliveries_append, this]
      | error e => cases e <;> simp [only_append, deliveries_append, closes]

/-- **C02** (branch) The side network and the network downstream each behave as if alone with the
consumed items (when downstream raised, or nobody did), except that downstream misses the last item
when the side network raised on it. -/
theorem branch_delivery (i : Nat) (side down : Net α) (h1 : side.readOnly = true) (h2 : down.readOnly = true)
    (hn : (Net.branch i side down).ids.Nodup) (xs : List α) :
    let r := push xs (.branch i side down)
    (r.consumed = xs.length ∧ r.exc = none ∧
      only side.ids r.trace = (push xs side).trace ∧ only down.ids r.trace = (push xs down).trace) ∨
    (r.exc = (push xs side).exc ∧ r.consumed = (push xs side).consumed ∧ 0 < r.consumed ∧
      only side.ids r.trace = (push (xs.take r.consumed) side).trace ∧
      only down.ids r.trace = (push (xs.take (r.consumed - 1)) down).trace) ∨
    (r.exc = (push xs down).exc ∧ r.consumed = (push xs down).consumed ∧
      only side.ids r.trace = (push (xs.take r.consumed) side).trace ∧
      only down.ids r.trace = (push (xs.take r.consumed) down).trace) := by
  have hf := fork_delivery i (.cons side (.cons down .nil)) (by simp [Nets.readOnly, h1, h2])
    (by simpa [Net.ids, Nets.ids] using hn) xs
  obtain ⟨q1, q2, q3, q4, _⟩ := pushFrom_branch i side down hn xs (init side) (init down)
  simp only [push, init, inits] at hf ⊢
  rw [q1, q2, q3, q4]
  rcases hf with ⟨a1, a2, a3⟩ | ⟨j, tj, b1, b2, b3, b4, b5⟩
  · exact Or.inl ⟨a1, a2, a3 _ _ .head, a3 _ _ (.tail .head)⟩
  · right
    cases b1 with
    | head =>
      left
      exact ⟨b2, b3, b4, by simpa using b5 _ _ .head, by simpa using b5 _ _ (.tail .head)⟩
    | tail b1 =>
      cases b1 with
      | head =>
        right
        exact ⟨b2, b3, by simpa using b5 _ _ .head, by simpa using b5 _ _ (.tail .head)⟩
      | tail b1 => cases b1

/-- **C02** (branch, order) A sink on the side gets each item before a sink downstream. -/
theorem branch_order (i a b : Nat) (ea eb : α → Option Exc)
    (hn : (Net.branch i (.sink a ea) (.sink b eb)).ids.Nodup) (xs : List α) :
    ∃ m ≤ xs.length,
      deliveries [a, b] (push xs (.branch i (.sink a ea) (.sink b eb))).trace =
        (xs.take m).flatMap (fun x => [.recv a x, .recv b x]) ∨
      ∃ x, xs[m]? = some x ∧
        deliveries [a, b] (push xs (.branch i (.sink a ea) (.sink b eb))).trace =
          (xs.take m).flatMap (fun x => [.recv a x, .recv b x]) ++ [.recv a x] := by
  have hf := fork_order i (.cons (.sink a ea) (.cons (.sink b eb) .nil)) (by simp [Nets.readOnly, Net.readOnly])
    (by simpa [Net.ids, Nets.ids] using hn) .head (.tail .head) (by omega) xs
  obtain ⟨_, _, _, _, q⟩ := pushFrom_branch i (.sink a ea) (.sink b eb) hn xs .sink .sink
  simp only [push, init, inits] at hf ⊢
  rw [q]; exact hf

/-- Three targets; the middle one stops the pipeline at 2. -/
def exampleFork : Nets Nat :=
  .ofList [.sink 1 fun _ => none, .filter 2 (fun x => .ok (x != 0)) (stopWhen 3 (· == 2)), .sink 4 fun _ => none]

example : exampleFork.readOnly = true ∧ (Net.fork 0 exampleFork).ids.Nodup ∧
    (push [0, 1, 2, 3] (.fork 0 exampleFork)).consumed = 3 ∧
    received 1 (push [0, 1, 2, 3] (.fork 0 exampleFork)).trace = [0, 1, 2] ∧
    received 4 (push [0, 1, 2, 3] (.fork 0 exampleFork)).trace = [0, 1] := by decide
example : Target (.sink 1 fun _ => none) 0 exampleFork ∧ Target (.sink 4 fun _ => none) 2 exampleFork :=
  ⟨.head, .tail (.tail .head)⟩
example : (Net.branch 0 (.sink (α := Nat) 1 fun _ => none) (.sink 2 fun _ => none)).ids.Nodup := by decide

end Verif.Dataflow
