import Verif.Lemmas.DataflowOps
import Verif.Lemmas.DataflowLife
/-!
# Runs in which nothing raises

`Clean n s xs`: sending the items `xs` to the network `n` in state `s` raises nothing.  Each lemma says what a component makes of a clean run of what is downstream of it.
-/
namespace Verif.Dataflow
variable {α : Type}

/-- No send of the items raises. -/
def Clean (n : Net α) : St n → List α → Prop
  | _, [] => True
  | s, x :: xs => ∃ s', (send n s x).next = .ok s' ∧ Clean n s' xs

theorem Clean.run {n : Net α} : ∀ {xs : List α} {s : St n}, Clean n s xs →
    (pushFrom n s xs).exc = none ∧ (pushFrom n s xs).consumed = xs.length
  | [], s, _ => by simp [pushFrom]
  | x :: xs, s, ⟨s', h1, h2⟩ => by
    obtain ⟨a, b⟩ := Clean.run h2
    rw [pushFrom_cons_ok n s s' x xs h1]
    simp [a, b]

theorem recv_only_own (i : Nat) (x : α) {ids : List Nat} (h : i ∉ ids) (l : List (Ev α)) : only ids (.recv i x :: l) = only ids l := by
  simp [only, Ev.id, h]

/-- A component with `args` and `out` whose function does not raise. -/
theorem clean_mapIn (i : Nat) (op : α → Except Exc α) (g : α → α) (t : Net α) (hi : i ∉ t.ids) : ∀ (xs : List α) (s : St t),
    (∀ x ∈ xs, op x = .ok (g x)) → Clean t s (xs.map g) →
    Clean (.mapIn i op t) (.mapIn s) xs ∧
    only t.ids (pushFrom (.mapIn i op t) (.mapIn s) xs).trace = (pushFrom t s (xs.map g)).trace := by
  intro xs
  induction xs with
  | nil =>
    intro s _ _
    refine ⟨trivial, ?_⟩
    simp only [pushFrom, close, only_append]
    rw [only_self ((inIds t).1 s), only_none (ids' := [i]) (by simp [EvsIn, Ev.id]) (by simpa using hi)]
    simp [pushFrom]
  | cons x xs ih =>
    intro s hop hc
    obtain ⟨s', h1, h2⟩ := hc
    have hx := hop x List.mem_cons_self
    obtain ⟨a, b⟩ := ih s' (fun y hy => hop y (List.mem_cons_of_mem _ hy)) h2
    have hn : (send (.mapIn i op t) (.mapIn s) x).next = .ok (.mapIn s') := by simp [send, hx, h1]
    have he : (send (.mapIn i op t) (.mapIn s) x).evs = (send t s (g x)).evs := by simp [send, hx, h1]
    refine ⟨⟨_, hn, a⟩, ?_⟩
    rw [pushFrom_cons_ok _ _ _ _ _ hn, List.map_cons, pushFrom_cons_ok t s s' _ _ h1]
    simp only [only_append, he, b]
    rw [only_self ((inIds t).2 s (g x))]

/-- A branch to a sink that does not raise. -/
theorem clean_branch_sink (i c : Nat) (t : Net α) (hi : i ∉ t.ids) (hc : c ∉ t.ids) : ∀ (xs : List α) (s : St t), Clean t s xs →
    Clean (.branch i (.sink c fun _ => none) t) (.branch .sink s) xs ∧
    only t.ids (pushFrom (.branch i (.sink c fun _ => none) t) (.branch .sink s) xs).trace = (pushFrom t s xs).trace ∧
    received c (pushFrom (.branch i (.sink c fun _ => none) t) (.branch .sink s) xs).trace = xs := by
  have h3 : ∀ x (l : List (Ev α)), received c (.recv c x :: l) = x :: received c l := by intros; simp [received]
  intro xs
  induction xs with
  | nil =>
    intro s _
    refine ⟨trivial, ?_, ?_⟩
    · simp only [pushFrom, close, only_append]
      rw [only_self ((inIds t).1 s)]
      have e1 : only t.ids [Ev.closed (α := α) c] = [] := only_none (ids' := [c]) (by simp [EvsIn, Ev.id]) (by simpa using hc)
      have e2 : only t.ids [Ev.closed (α := α) i] = [] := only_none (ids' := [i]) (by simp [EvsIn, Ev.id]) (by simpa using hi)
      simp [e1, e2]
    · simp only [pushFrom, close, received_append]
      rw [received_none ((inIds t).1 s) hc]
      simp [received]
  | cons x xs ih =>
    intro s hcl
    obtain ⟨s', h1, h2⟩ := hcl
    obtain ⟨a, b, d⟩ := ih s' h2
    have hn : (send (.branch i (.sink c fun _ => none) t) (.branch .sink s) x).next = .ok (.branch .sink s') := by simp [send, h1]
    have he : (send (.branch i (.sink c fun _ => none) t) (.branch .sink s) x).evs = .recv c x :: (send t s x).evs := by simp [send, h1]
    refine ⟨⟨_, hn, a⟩, ?_, ?_⟩
    · rw [pushFrom_cons_ok _ _ _ _ _ hn, pushFrom_cons_ok t s s' _ _ h1]
      simp only [only_append, he, b]
      rw [recv_only_own c x hc, only_self ((inIds t).2 s x)]
    · rw [pushFrom_cons_ok _ _ _ _ _ hn]
      simp only [he, List.cons_append, h3, received_append, d]
      rw [received_none ((inIds t).2 s x) hc, List.nil_append]

/-- A branch to a counter. -/
theorem clean_branch_count (i c : Nat) (t : Net α) (hi : i ∉ t.ids) (hc : c ∉ t.ids) : ∀ (xs : List α) (s : St t) (k : Nat), Clean t s xs →
    Clean (.branch i (.count c) t) (.branch (.count k) s) xs ∧
    only t.ids (pushFrom (.branch i (.count c) t) (.branch (.count k) s) xs).trace = (pushFrom t s xs).trace ∧
    results c (pushFrom (.branch i (.count c) t) (.branch (.count k) s) xs).trace = [.num (k + xs.length)] := by
  have h3 : ∀ x (l : List (Ev α)), results c (.recv c x :: l) = results c l := by intros; simp [results]
  intro xs
  induction xs with
  | nil =>
    intro s k _
    refine ⟨trivial, ?_, ?_⟩
    · simp only [pushFrom, close, only_append]
      rw [only_self ((inIds t).1 s)]
      have e1 : ∀ v, only t.ids [.result c v, Ev.closed (α := α) c] = [] := fun v => only_none (ids' := [c]) (by simp [EvsIn, Ev.id]) (by simpa using hc)
      have e2 : only t.ids [Ev.closed (α := α) i] = [] := only_none (ids' := [i]) (by simp [EvsIn, Ev.id]) (by simpa using hi)
      simp [e1, e2]
    · simp only [pushFrom, close, results_append]
      rw [results_none ((inIds t).1 s) hc]
      simp [results]
  | cons x xs ih =>
    intro s k hcl
    obtain ⟨s', h1, h2⟩ := hcl
    obtain ⟨a, b, d⟩ := ih s' (k + 1) h2
    have hn : (send (.branch i (.count c) t) (.branch (.count k) s) x).next = .ok (.branch (.count (k + 1)) s') := by simp [send, h1]
    have he : (send (.branch i (.count c) t) (.branch (.count k) s) x).evs = .recv c x :: (send t s x).evs := by simp [send, h1]
    refine ⟨⟨_, hn, a⟩, ?_, ?_⟩
    · rw [pushFrom_cons_ok _ _ _ _ _ hn, pushFrom_cons_ok t s s' _ _ h1]
      simp only [only_append, he, b]
      rw [recv_only_own c x hc, only_self ((inIds t).2 s x)]
    · rw [pushFrom_cons_ok _ _ _ _ _ hn]
      simp only [he, List.cons_append, h3, results_append, d]
      rw [results_none ((inIds t).2 s x) hc, List.nil_append, List.length_cons, show k + 1 + xs.length = k + (xs.length + 1) by omega]

/-- A counting filter whose predicate does not raise. -/
theorem clean_countFilter (i : Nat) (p : α → Except Exc Bool) (q : α → Bool) (t : Net α) (hi : i ∉ t.ids) : ∀ (xs : List α) (s : St t) (a b : Nat),
    (∀ x ∈ xs, p x = .ok (q x)) → Clean t s (xs.filter q) →
    Clean (.countFilter i p t) (.countFilter a b s) xs ∧
    only t.ids (pushFrom (.countFilter i p t) (.countFilter a b s) xs).trace = (pushFrom t s (xs.filter q)).trace ∧
    received i (pushFrom (.countFilter i p t) (.countFilter a b s) xs).trace = xs ∧
    results i (pushFrom (.countFilter i p t) (.countFilter a b s) xs).trace =
      [.passedFailed (a + (xs.filter q).length) (b + (xs.filter fun x => !q x).length)] := by
  have h3 : ∀ x (l : List (Ev α)), received i (.recv i x :: l) = x :: received i l := by intros; simp [received]
  have h4 : ∀ x (l : List (Ev α)), results i (.recv i x :: l) = results i l := by intros; simp [results]
  intro xs
  induction xs with
  | nil =>
    intro s a b _ _
    refine ⟨trivial, ?_, ?_, ?_⟩
    · simp only [pushFrom, close, only_append, List.filter_nil]
      rw [only_self ((inIds t).1 s)]
      have e1 : ∀ v, only t.ids [.result i v, Ev.closed (α := α) i] = [] := fun v => only_none (ids' := [i]) (by simp [EvsIn, Ev.id]) (by simpa using hi)
      rw [e1, List.append_nil]
    · simp only [pushFrom, close, received_append]
      rw [received_none ((inIds t).1 s) hi]
      simp [received]
    · simp only [pushFrom, close, results_append]
      rw [results_none ((inIds t).1 s) hi]
      simp [results]
  | cons x xs ih =>
    intro s a b hp hcl
    have hx := hp x List.mem_cons_self
    have hp' := fun y hy => hp y (List.mem_cons_of_mem x hy)
    cases hq : q x with
    | false =>
      rw [hq] at hx
      rw [List.filter_cons_of_neg (by simp [hq])] at hcl
      obtain ⟨c1, c2, c3, c4⟩ := ih s a (b + 1) hp' hcl
      have hn : (send (.countFilter i p t) (.countFilter a b s) x).next = .ok (.countFilter a (b + 1) s) := by simp [send, hx]
      have he : (send (.countFilter i p t) (.countFilter a b s) x).evs = [.recv i x] := by simp [send, hx]
      refine ⟨⟨_, hn, c1⟩, ?_, ?_, ?_⟩
      · rw [pushFrom_cons_ok _ _ _ _ _ hn, List.filter_cons_of_neg (by simp [hq])]
        simp only [he, List.cons_append, List.nil_append, recv_only_own i x hi, c2]
      · rw [pushFrom_cons_ok _ _ _ _ _ hn]
        simp only [he, List.cons_append, List.nil_append, h3, c3]
      · rw [pushFrom_cons_ok _ _ _ _ _ hn, List.filter_cons_of_neg (by simp [hq]), List.filter_cons_of_pos (by simp [hq])]
        simp only [he, List.cons_append, List.nil_append, h4, c4, List.length_cons]
        rw [show b + 1 + (xs.filter fun x => !q x).length = b + ((xs.filter fun x => !q x).length + 1) by omega]
    | true =>
      rw [hq] at hx
      rw [List.filter_cons_of_pos (by simp [hq])] at hcl
      obtain ⟨s', h1, h2⟩ := hcl
      obtain ⟨c1, c2, c3, c4⟩ := ih s' (a + 1) b hp' h2
      have hn : (send (.countFilter i p t) (.countFilter a b s) x).next = .ok (.countFilter (a + 1) b s') := by simp [send, hx, h1]
      have he : (send (.countFilter i p t) (.countFilter a b s) x).evs = .recv i x :: (send t s x).evs := by simp [send, hx, h1]
      refine ⟨⟨_, hn, c1⟩, ?_, ?_, ?_⟩
      · rw [pushFrom_cons_ok _ _ _ _ _ hn, List.filter_cons_of_pos (by simp [hq]), pushFrom_cons_ok t s s' _ _ h1]
        simp only [he, List.cons_append, only_append, recv_only_own i x hi, c2]
        rw [only_self ((inIds t).2 s x)]
      · rw [pushFrom_cons_ok _ _ _ _ _ hn]
        simp only [he, List.cons_append, h3, received_append, c3]
        rw [received_none ((inIds t).2 s x) hi, List.nil_append]
      · rw [pushFrom_cons_ok _ _ _ _ _ hn, List.filter_cons_of_pos (by simp [hq]), List.filter_cons_of_neg (by simp [hq])]
        simp only [he, List.cons_append, h4, results_append, c4, List.length_cons]
        rw [results_none ((inIds t).2 s x) hi, List.nil_append,
          show a + 1 + (xs.filter q).length = a + ((xs.filter q).length + 1) by omega]

/-- A fork of two sinks. -/
theorem clean_fork_two (i a b : Nat) (hab : a ≠ b) : ∀ (xs : List α),
    Clean (.fork i (.ofList [.sink a fun _ => none, .sink b fun _ => none])) (.fork (.cons .sink (.cons .sink .nil))) xs ∧
    received a (pushFrom (.fork i (.ofList [.sink a fun _ => none, .sink b fun _ => none])) (.fork (.cons .sink (.cons .sink .nil))) xs).trace = xs ∧
    received b (pushFrom (.fork i (.ofList [.sink a fun _ => none, .sink b fun _ => none])) (.fork (.cons .sink (.cons .sink .nil))) xs).trace = xs := by
  intro xs
  induction xs with
  | nil => refine ⟨trivial, ?_, ?_⟩ <;> simp [pushFrom, close, closes, received, Nets.ofList]
  | cons x xs ih =>
    obtain ⟨h1, h2, h3⟩ := ih
    have hn : (send (.fork i (.ofList [.sink a fun _ => none, .sink b fun _ => none])) (.fork (.cons .sink (.cons .sink .nil))) x).next =
        .ok (.fork (.cons .sink (.cons .sink .nil))) := by simp [send, sends, Nets.ofList]
    have he : (send (.fork i (.ofList [.sink a fun _ => none, .sink b fun _ => none])) (.fork (.cons .sink (.cons .sink .nil))) x).evs =
        [.recv a x, .recv b x] := by simp [send, sends, Nets.ofList]
    refine ⟨⟨_, hn, h1⟩, ?_, ?_⟩
    · rw [pushFrom_cons_ok _ _ _ _ _ hn]
      simp only [he, received_append, h2]
      simp [received, hab.symm]
    · rw [pushFrom_cons_ok _ _ _ _ _ hn]
      simp only [he, received_append, h3]
      simp [received, hab]

/-- A filter whose predicate does not raise. -/
theorem clean_filter (i : Nat) (p : α → Except Exc Bool) (q : α → Bool) (t : Net α) (hi : i ∉ t.ids) : ∀ (xs : List α) (s : St t),
    (∀ x ∈ xs, p x = .ok (q x)) → Clean t s (xs.filter q) →
    Clean (.filter i p t) (.filter s) xs ∧
    only t.ids (pushFrom (.filter i p t) (.filter s) xs).trace = (pushFrom t s (xs.filter q)).trace := by
  intro xs
  induction xs with
  | nil =>
    intro s _ _
    refine ⟨trivial, ?_⟩
    simp only [pushFrom, close, only_append, List.filter_nil]
    rw [only_self ((inIds t).1 s), only_none (ids' := [i]) (by simp [EvsIn, Ev.id]) (by simpa using hi), List.append_nil]
  | cons x xs ih =>
    intro s hp hcl
    have hx := hp x List.mem_cons_self
    have hp' := fun y hy => hp y (List.mem_cons_of_mem x hy)
    cases hq : q x with
    | false =>
      rw [hq] at hx
      rw [List.filter_cons_of_neg (by simp [hq])] at hcl
      obtain ⟨c1, c2⟩ := ih s hp' hcl
      have hn : (send (.filter i p t) (.filter s) x).next = .ok (.filter s) := by simp [send, hx]
      have he : (send (.filter i p t) (.filter s) x).evs = [] := by simp [send, hx]
      refine ⟨⟨_, hn, c1⟩, ?_⟩
      rw [pushFrom_cons_ok _ _ _ _ _ hn, List.filter_cons_of_neg (by simp [hq])]
      simp only [he, List.nil_append, c2]
    | true =>
      rw [hq] at hx
      rw [List.filter_cons_of_pos (by simp [hq])] at hcl
      obtain ⟨s', h1, h2⟩ := hcl
      obtain ⟨c1, c2⟩ := ih s' hp' h2
      have hn : (send (.filter i p t) (.filter s) x).next = .ok (.filter s') := by simp [send, hx, h1]
      have he : (send (.filter i p t) (.filter s) x).evs = (send t s x).evs := by simp [send, hx, h1]
      refine ⟨⟨_, hn, c1⟩, ?_⟩
      rw [pushFrom_cons_ok _ _ _ _ _ hn, List.filter_cons_of_pos (by simp [hq]), pushFrom_cons_ok t s s' _ _ h1]
      simp only [only_append, c2, he]
      rw [only_self ((inIds t).2 s x)]

/-! ### Pipes of stages -/

/-- The stages of a pipe of a city, with the identities of their components. -/
inductive CStage (α : Type) where
  | mapIn (i : Nat) (op : α → Except Exc α)
  | sinkBranch (i c : Nat)
  | countBranch (i c : Nat)
  | countFilter (i : Nat) (p : α → Except Exc Bool)
  | filter (i : Nat) (p : α → Except Exc Bool)

namespace CStage

/-- The component. -/
def net : CStage α → Net α → Net α
  | .mapIn i op => .mapIn i op
  | .sinkBranch i c => .branch i (.sink c fun _ => none)
  | .countBranch i c => .branch i (.count c)
  | .countFilter i p => .countFilter i p
  | .filter i p => .filter i p

/-- Its identities. -/
def ids : CStage α → List Nat
  | .mapIn i _ => [i]
  | .sinkBranch i c => [i, c]
  | .countBranch i c => [i, c]
  | .countFilter i _ => [i]
  | .filter i _ => [i]

/-- The items handed on. -/
def onList : CStage α → List α → List α
  | .mapIn _ op, xs => xs.filterMap fun x => (op x).toOption
  | .sinkBranch _ _, xs => xs
  | .countBranch _ _, xs => xs
  | .countFilter _ p, xs => xs.filter fun x => (p x).toOption.getD false
  | .filter _ p, xs => xs.filter fun x => (p x).toOption.getD false

/-- The function of the stage does not raise on the items. -/
def Fine : CStage α → List α → Prop
  | .mapIn _ op, xs => ∀ x ∈ xs, ∃ y, op x = .ok y
  | .sinkBranch _ _, _ => True
  | .countBranch _ _, _ => True
  | .countFilter _ p, xs => ∀ x ∈ xs, ∃ b, p x = .ok b
  | .filter _ p, xs => ∀ x ∈ xs, ∃ b, p x = .ok b

/-- What is observed of the stage in a trace when it is given the items. -/
def Seen : CStage α → List α → List (Ev α) → Prop
  | .mapIn _ _, _, _ => True
  | .sinkBranch _ c, xs, tr => received c tr = xs
  | .countBranch _ c, xs, tr => results c tr = [.num xs.length]
  | .countFilter i p, xs, tr => results i tr =
      [.passedFailed (xs.filter fun x => (p x).toOption.getD false).length (xs.filter fun x => !(p x).toOption.getD false).length]
  | .filter _ _, _, _ => True

theorem net_ids (s : CStage α) (t : Net α) : (s.net t).ids = s.ids ++ t.ids := by
  cases s <;> simp [net, ids, Net.ids]

theorem seen_only {s : CStage α} {xs : List α} {tr : List (Ev α)} {b : List Nat} (h : ∀ j ∈ s.ids, j ∈ b) (hs : s.Seen xs (only b tr)) : s.Seen xs tr := by
  have rc : ∀ c, c ∈ b → received c (only b tr) = received c tr := by
    intro c hc
    rw [← received_only c (only b tr), only_only (by simpa using hc), received_only]
  have rs : ∀ c, c ∈ b → results c (only b tr) = results c tr := by
    intro c hc
    rw [← results_only c (only b tr), only_only (by simpa using hc), results_only]
  cases s with
  | mapIn i op => trivial
  | sinkBranch i c => simp only [Seen] at hs ⊢; rw [← rc c (h c (by simp [ids]))]; exact hs
  | countBranch i c => simp only [Seen] at hs ⊢; rw [← rs c (h c (by simp [ids]))]; exact hs
  | countFilter i p => simp only [Seen] at hs ⊢; rw [← rs i (h i (by simp [ids]))]; exact hs
  | filter i p => trivial

/-- One stage before a clean run. -/
theorem clean_stage (s : CStage α) (t : Net α) (hd : ∀ j ∈ s.ids, j ∉ t.ids) (xs : List α) (hf : s.Fine xs) (hc : Clean t (init t) (s.onList xs)) :
    Clean (s.net t) (init (s.net t)) xs ∧ only t.ids (push xs (s.net t)).trace = (push (s.onList xs) t).trace ∧
    s.Seen xs (push xs (s.net t)).trace := by
  cases s with
  | mapIn i op =>
    let g : α → α := fun x => (op x).toOption.getD x
    have hg : ∀ x ∈ xs, op x = .ok (g x) := by
      intro x hx
      obtain ⟨y, hy⟩ := hf x hx
      simp [g, hy, Except.toOption]
    have e : (CStage.mapIn i op).onList xs = xs.map g := by
      simp only [onList]
      clear hc hf
      induction xs with
      | nil => rfl
      | cons x xs ih =>
        have h1 := hg x List.mem_cons_self
        rw [List.map_cons, ← ih (fun y hy => hg y (List.mem_cons_of_mem _ hy)), List.filterMap_cons_some (b := g x)]
        rw [h1]; rfl
    rw [e] at hc ⊢
    obtain ⟨a, b⟩ := clean_mapIn i op g t (hd i (by simp [ids])) xs (init t) hg hc
    exact ⟨a, b, trivial⟩
  | sinkBranch i c => exact clean_branch_sink i c t (hd i (by simp [ids])) (hd c (by simp [ids])) xs (init t) hc
  | countBranch i c =>
    obtain ⟨a, b, d⟩ := clean_branch_count i c t (hd i (by simp [ids])) (hd c (by simp [ids])) xs (init t) 0 hc
    rw [Nat.zero_add] at d
    exact ⟨a, b, d⟩
  | countFilter i p =>
    have hg : ∀ x ∈ xs, p x = .ok ((p x).toOption.getD false) := by
      intro x hx
      obtain ⟨y, hy⟩ := hf x hx
      simp [hy, Except.toOption]
    obtain ⟨a, b, _, d⟩ := clean_countFilter i p _ t (hd i (by simp [ids])) xs (init t) 0 0 hg hc
    rw [Nat.zero_add, Nat.zero_add] at d
    exact ⟨a, b, d⟩
  | filter i p =>
    have hg : ∀ x ∈ xs, p x = .ok ((p x).toOption.getD false) := by
      intro x hx
      obtain ⟨y, hy⟩ := hf x hx
      simp [hy, Except.toOption]
    obtain ⟨a, b⟩ := clean_filter i p _ t (hd i (by simp [ids])) xs (init t) hg hc
    exact ⟨a, b, trivial⟩

end CStage

/-- The items at the end of the stages. -/
def streamOf : List (CStage α) → List α → List α
  | [], xs => xs
  | s :: ss, xs => streamOf ss (s.onList xs)

/-- No stage raises. -/
def AllFine : List (CStage α) → List α → Prop
  | [], _ => True
  | s :: ss, xs => s.Fine xs ∧ AllFine ss (s.onList xs)

/-- What is observed of all the stages. -/
def AllSeen : List (CStage α) → List α → List (Ev α) → Prop
  | [], _, _ => True
  | s :: ss, xs, tr => s.Seen xs tr ∧ AllSeen ss (s.onList xs) tr

theorem allSeen_only {b : List Nat} {tr : List (Ev α)} : ∀ {ss : List (CStage α)} {xs : List α}, (∀ s ∈ ss, ∀ j ∈ s.ids, j ∈ b) →
    AllSeen ss xs (only b tr) → AllSeen ss xs tr
  | [], _, _, _ => trivial
  | _ :: _, _, h, hs => ⟨CStage.seen_only (h _ List.mem_cons_self) hs.1, allSeen_only (fun s hs' => h s (List.mem_cons_of_mem _ hs')) hs.2⟩

theorem pipe_ids (ss : List (CStage α)) (last : Net α) : (pipe (ss.map CStage.net) last).ids = ss.flatMap CStage.ids ++ last.ids := by
  induction ss with
  | nil => simp [pipe]
  | cons s ss ih =>
    simp only [pipe, List.map_cons, List.foldr_cons, List.flatMap_cons, List.append_assoc] at ih ⊢
    rw [CStage.net_ids, ih]

/-- A pipe of stages before a clean run: nothing raises, the last network receives the stream, and each stage is seen to receive the stream of the stages before. -/
theorem clean_pipe (ss : List (CStage α)) (last : Net α) : ∀ (xs : List α), (pipe (ss.map CStage.net) last).ids.Nodup → AllFine ss xs →
    Clean last (init last) (streamOf ss xs) →
    Clean (pipe (ss.map CStage.net) last) (init _) xs ∧
    only last.ids (push xs (pipe (ss.map CStage.net) last)).trace = (push (streamOf ss xs) last).trace ∧
    AllSeen ss xs (push xs (pipe (ss.map CStage.net) last)).trace := by
  induction ss with
  | nil =>
    intro xs _ _ hc
    exact ⟨hc, only_self ((inIds last).act (Act.pushFrom xs (init last))), trivial⟩
  | cons s ss ih =>
    intro xs hn hf hc
    have hn' := hn
    rw [pipe_ids, List.flatMap_cons, List.append_assoc, ← pipe_ids] at hn'
    obtain ⟨n1, n2, n3⟩ := List.nodup_append.1 hn'
    obtain ⟨a, b, c⟩ := ih (s.onList xs) n2 hf.2 hc
    obtain ⟨d, e, g⟩ := CStage.clean_stage s (pipe (ss.map CStage.net) last) (fun j hj hj' => n3 j hj j hj' rfl) xs hf.1 a
    refine ⟨d, ?_, g, ?_⟩
    · show only last.ids (push xs (s.net (pipe (ss.map CStage.net) last))).trace = (push (streamOf ss (s.onList xs)) last).trace
      rw [← b, ← e, only_only]
      intro j hj; rw [pipe_ids]; exact List.mem_append_right _ hj
    · apply allSeen_only (b := (pipe (ss.map CStage.net) last).ids)
      · intro s' hs' j hj
        rw [pipe_ids]; exact List.mem_append_left _ (List.mem_flatMap.2 ⟨s', hs', hj⟩)
      · have : only (pipe (ss.map CStage.net) last).ids (push xs (pipe ((s :: ss).map CStage.net) last)).trace =
            (push (s.onList xs) (pipe (ss.map CStage.net) last)).trace := e
        rw [this]; exact c

end Verif.Dataflow
