import Verif.Lemmas.Dataflow
/-! Helper lemmas: locality.  A component inside a network behaves as if it were run alone on some
items; hence facts about single components lift to any network containing them. -/
namespace Verif.Dataflow
variable {α : Type}

/-- A possible use of a generator from state `s`: any number of sends, possibly ended by a failing
send or by `close` (then the final state is `none`). -/
inductive Act (n : Net α) : St n → List (Ev α) → Option (St n) → Prop where
  | idle (s : St n) : Act n s [] (some s)
  | close (s : St n) : Act n s (close n s) none
  | fail (s : St n) (x : α) (e : Exc) : (send n s x).next = .error e → Act n s (send n s x).evs none
  | step (s : St n) (x : α) (s' : St n) (evs : List (Ev α)) (out : Option (St n)) :
      (send n s x).next = .ok s' → Act n s' evs out → Act n s ((send n s x).evs ++ evs) out

theorem Act.one {n : Net α} {s s' : St n} {x : α} (h : (send n s x).next = .ok s') :
    Act n s (send n s x).evs (some s') := by
  have := Act.step s x s' [] (some s') h (.idle s')
  simpa using this

theorem Act.trans {n : Net α} {s s' : St n} {e1 e2 : List (Ev α)} {o : Option (St n)}
    (h1 : Act n s e1 (some s')) (h2 : Act n s' e2 o) : Act n s (e1 ++ e2) o := by
  generalize ho : some s' = o1 at h1
  induction h1 with
  | idle s => cases ho; simpa using h2
  | close s => cases ho
  | fail => cases ho
  | step s x s'' evs out hn hact ih =>
    subst ho
    rw [List.append_assoc]
    exact Act.step s x s'' _ o hn (ih rfl)

theorem Act.sendList {t : Net α} (ys : List α) : ∀ s : St t,
    (∀ s', (sendList (send t) s ys).2 = .ok s' → Act t s (sendList (send t) s ys).1 (some s')) ∧
    (∀ e, (sendList (send t) s ys).2 = .error e → Act t s (sendList (send t) s ys).1 none) := by
  induction ys with
  | nil => intro s; simp [Dataflow.sendList]; exact .idle s
  | cons y ys ih =>
    intro s
    simp only [Dataflow.sendList]
    cases h : (send t s y).next with
    | error e => simpa using Act.fail s y e h
    | ok s' =>
      constructor
      · intro s'' h''; exact .step s y s' _ _ h ((ih s').1 s'' h'')
      · intro e h''; exact .step s y s' _ _ h ((ih s').2 e h'')

theorem Act.sendUpd {t : Net α} (us : List (α → α)) : ∀ (s : St t) (x : α),
    (∀ s', (sendUpd (send t) s x us).next = .ok s' → Act t s (sendUpd (send t) s x us).evs (some s')) ∧
    (∀ e, (sendUpd (send t) s x us).next = .error e → Act t s (sendUpd (send t) s x us).evs none) := by
  induction us with
  | nil => intro s x; simp [Dataflow.sendUpd]; exact .idle s
  | cons u us ih =>
    intro s x
    simp only [Dataflow.sendUpd]
    cases h : (send t s (u x)).next with
    | error e => simpa using Act.fail s (u x) e h
    | ok s' =>
      constructor
      · intro s'' h''; exact .step s (u x) s' _ _ h ((ih s' _).1 s'' h'')
      · intro e h''; exact .step s (u x) s' _ _ h ((ih s' _).2 e h'')

/-- Everything that happens in a run from state `s` is a use of the generator that ends. -/
theorem Act.pushFrom {n : Net α} (xs : List α) : ∀ s : St n, Act n s (pushFrom n s xs).trace none := by
  induction xs with
  | nil => intro s; exact .close s
  | cons x xs ih =>
    intro s
    rw [pushFrom_cons]
    cases h : (send n s x).next with
    | ok s' => exact .step s x s' _ _ h (ih s')
    | error e => cases e <;> exact .fail s x _ h

/-- A use that ends is a run on some source. -/
theorem Act.run {n : Net α} {s : St n} {evs : List (Ev α)} (h : Act n s evs none) :
    ∃ ys, evs = (Dataflow.pushFrom n s ys).trace := by
  generalize ho : none = o at h
  induction h with
  | idle s => cases ho
  | close s => exact ⟨[], rfl⟩
  | fail s x e he =>
    refine ⟨[x], ?_⟩
    rw [pushFrom_cons, he]; cases e <;> rfl
  | step s x s' evs out hn _ ih =>
    obtain ⟨ys, rfl⟩ := ih ho
    exact ⟨x :: ys, by rw [pushFrom_cons, hn]⟩

/-- Own events of a component `i`: before and after those of its target. -/
def IsOwn (i : Nat) (x : α) (own : List (Ev α)) : Prop := own = [] ∨ own = [.recv i x]
def IsFin (i : Nat) (fin : List (Ev α)) : Prop := fin = [.closed i] ∨ ∃ v, fin = [.result i v, .closed i]

/-- Components with one target `t`. -/
structure Unary (n : Net α) (i : Nat) (t : Net α) (sel : St n → St t) : Prop where
  ids : n.ids = i :: t.ids
  close : ∀ S, ∃ fin, Dataflow.close n S = Dataflow.close t (sel S) ++ fin ∧ IsFin i fin
  ok : ∀ S x S', (send n S x).next = .ok S' →
    ∃ own evs, (send n S x).evs = own ++ evs ∧ IsOwn i x own ∧ Act t (sel S) evs (some (sel S'))
  err : ∀ S x e, (send n S x).next = .error e →
    ∃ own evs fin, (send n S x).evs = own ++ evs ++ fin ∧ IsOwn i x own ∧ IsFin i fin ∧
      Act t (sel S) evs none

theorem IsFin.closed (i : Nat) : IsFin (α := α) i [.closed i] := Or.inl rfl
theorem IsFin.res (i : Nat) (v : Res α) : IsFin (α := α) i [.result i v, .closed i] := Or.inr ⟨v, rfl⟩
theorem IsOwn.nil (i : Nat) (x : α) : IsOwn i x [] := Or.inl rfl
theorem IsOwn.recv (i : Nat) (x : α) : IsOwn i x [.recv i x] := Or.inr rfl

def selMap {i op} {t : Net α} : St (.map i op t) → St t | .map s => s
def selMapIn {i op} {t : Net α} : St (.mapIn i op t) → St t | .mapIn s => s
def selFlatmap {i op} {t : Net α} : St (.flatmap i op t) → St t | .flatmap s => s
def selFlatmapIn {i op} {t : Net α} : St (.flatmapIn i op t) → St t | .flatmapIn s => s
def selFilter {i op} {t : Net α} : St (.filter i op t) → St t | .filter s => s
def selCountFilter {i op} {t : Net α} : St (.countFilter i op t) → St t | .countFilter _ _ s => s
def selSpy {i op} {t : Net α} : St (.spy i op t) → St t | .spy s => s
def selSlice {i a b g ca} {t : Net α} : St (.slice i a b g ca t) → St t | .slice _ s => s

theorem unary_map (i op) (t : Net α) : Unary (.map i op t) i t selMap where
  ids := by simp [Net.ids]
  close := by rintro ⟨s⟩; exact ⟨_, rfl, .closed i⟩
  ok := by
    intro S x S' h; cases S; rename_i s
    simp only [send] at h ⊢
    cases ho : op x with
    | error e => simp [ho] at h
    | ok y =>
      simp only [ho] at h ⊢
      cases hn : (send t s y).next with
      | error e => simp [hn] at h
      | ok s' => simp only [hn, Except.ok.injEq] at h ⊢; subst h; exact ⟨[], _, rfl, .nil .., .one hn⟩
  err := by
    intro S x e h; cases S; rename_i s
    simp only [send] at h ⊢
    cases ho : op x with
    | error e => exact ⟨[], _, _, rfl, .nil .., .closed i, .close s⟩
    | ok y =>
      simp only [ho] at h ⊢
      cases hn : (send t s y).next with
      | ok s' => simp [hn] at h
      | error e' => exact ⟨[], _, _, rfl, .nil .., .closed i, .fail s y e' hn⟩

theorem unary_mapIn (i op) (t : Net α) : Unary (.mapIn i op t) i t selMapIn where
  ids := by simp [Net.ids]
  close := by rintro ⟨s⟩; exact ⟨_, rfl, .closed i⟩
  ok := by
    intro S x S' h; cases S; rename_i s
    simp only [send] at h ⊢
    cases ho : op x with
    | error e => simp [ho] at h
    | ok y =>
      simp only [ho] at h ⊢
      cases hn : (send t s y).next with
      | error e => simp [hn] at h
      | ok s' => simp only [hn, Except.ok.injEq] at h ⊢; subst h; exact ⟨[], _, rfl, .nil .., .one hn⟩
  err := by
    intro S x e h; cases S; rename_i s
    simp only [send] at h ⊢
    cases ho : op x with
    | error e => exact ⟨[], _, _, rfl, .nil .., .closed i, .close s⟩
    | ok y =>
      simp only [ho] at h ⊢
      cases hn : (send t s y).next with
      | ok s' => simp [hn] at h
      | error e' => exact ⟨[], _, _, rfl, .nil .., .closed i, .fail s y e' hn⟩

theorem unary_flatmap (i op) (t : Net α) : Unary (.flatmap i op t) i t selFlatmap where
  ids := by simp [Net.ids]
  close := by rintro ⟨s⟩; exact ⟨_, rfl, .closed i⟩
  ok := by
    intro S x S' h; cases S; rename_i s
    simp only [send] at h ⊢
    cases ho : op x with
    | error e => simp [ho] at h
    | ok y =>
      simp only [ho] at h ⊢
      cases hn : (sendList (send t) s y).2 with
      | error e => simp [hn] at h
      | ok s' =>
        simp only [hn, Except.ok.injEq] at h ⊢; subst h
        exact ⟨[], _, rfl, .nil .., (Act.sendList y s).1 s' hn⟩
  err := by
    intro S x e h; cases S; rename_i s
    simp only [send] at h ⊢
    cases ho : op x with
    | error e => exact ⟨[], _, _, rfl, .nil .., .closed i, .close s⟩
    | ok y =>
      simp only [ho] at h ⊢
      cases hn : (sendList (send t) s y).2 with
      | ok s' => simp [hn] at h
      | error e' => exact ⟨[], _, _, rfl, .nil .., .closed i, (Act.sendList y s).2 e' hn⟩

theorem unary_flatmapIn (i op) (t : Net α) : Unary (.flatmapIn i op t) i t selFlatmapIn where
  ids := by simp [Net.ids]
  close := by rintro ⟨s⟩; exact ⟨_, rfl, .closed i⟩
  ok := by
    intro S x S' h; cases S; rename_i s
    simp only [send] at h ⊢
    cases ho : op x with
    | error e => simp [ho] at h
    | ok y =>
      simp only [ho] at h ⊢
      cases hn : (sendUpd (send t) s x y).next with
      | error e => simp [hn] at h
      | ok s' =>
        simp only [hn, Except.ok.injEq] at h ⊢; subst h
        exact ⟨[], _, rfl, .nil .., (Act.sendUpd y s x).1 s' hn⟩
  err := by
    intro S x e h; cases S; rename_i s
    simp only [send] at h ⊢
    cases ho : op x with
    | error e => exact ⟨[], _, _, rfl, .nil .., .closed i, .close s⟩
    | ok y =>
      simp only [ho] at h ⊢
      cases hn : (sendUpd (send t) s x y).next with
      | ok s' => simp [hn] at h
      | error e' => exact ⟨[], _, _, rfl, .nil .., .closed i, (Act.sendUpd y s x).2 e' hn⟩

theorem unary_filter (i op) (t : Net α) : Unary (.filter i op t) i t selFilter where
  ids := by simp [Net.ids]
  close := by rintro ⟨s⟩; exact ⟨_, rfl, .closed i⟩
  ok := by
    intro S x S' h; cases S; rename_i s
    simp only [send] at h ⊢
    cases ho : op x with
    | error e => simp [ho] at h
    | ok y =>
      cases y with
      | false => simp only [ho, Except.ok.injEq] at h ⊢; subst h; exact ⟨[], _, rfl, .nil .., .idle s⟩
      | true =>
        simp only [ho] at h ⊢
        cases hn : (send t s x).next with
        | error e => simp [hn] at h
        | ok s' => simp only [hn, Except.ok.injEq] at h ⊢; subst h; exact ⟨[], _, rfl, .nil .., .one hn⟩
  err := by
    intro S x e h; cases S; rename_i s
    simp only [send] at h ⊢
    cases ho : op x with
    | error e => exact ⟨[], _, _, rfl, .nil .., .closed i, .close s⟩
    | ok y =>
      cases y with
      | false => simp [ho] at h
      | true =>
        simp only [ho] at h ⊢
        cases hn : (send t s x).next with
        | ok s' => simp [hn] at h
        | error e' => exact ⟨[], _, _, rfl, .nil .., .closed i, .fail s x e' hn⟩

theorem unary_countFilter (i op) (t : Net α) : Unary (.countFilter i op t) i t selCountFilter where
  ids := by simp [Net.ids]
  close := by rintro ⟨s⟩; exact ⟨_, rfl, .res i _⟩
  ok := by
    intro S x S' h; cases S; rename_i np nf s
    simp only [send] at h ⊢
    cases ho : op x with
    | error e => simp [ho] at h
    | ok y =>
      cases y with
      | false => simp only [ho, Except.ok.injEq] at h ⊢; subst h; exact ⟨[_], [], rfl, .recv .., .idle s⟩
      | true =>
        simp only [ho] at h ⊢
        cases hn : (send t s x).next with
        | error e => simp [hn] at h
        | ok s' => simp only [hn, Except.ok.injEq] at h ⊢; subst h; exact ⟨[_], _, rfl, .recv .., .one hn⟩
  err := by
    intro S x e h; cases S; rename_i np nf s
    simp only [send] at h ⊢
    cases ho : op x with
    | error e => exact ⟨[_], _, [_, _], by simp; rfl, .recv .., .res i _, .close s⟩
    | ok y =>
      cases y with
      | false => simp [ho] at h
      | true =>
        simp only [ho] at h ⊢
        cases hn : (send t s x).next with
        | ok s' => simp [hn] at h
        | error e' => exact ⟨[_], _, [_, _], by simp; rfl, .recv .., .res i _, .fail s x e' hn⟩

theorem unary_spy (i op) (t : Net α) : Unary (.spy i op t) i t selSpy where
  ids := by simp [Net.ids]
  close := by rintro ⟨s⟩; exact ⟨_, rfl, .closed i⟩
  ok := by
    intro S x S' h; cases S; rename_i s
    simp only [send] at h ⊢
    cases ho : op x with
    | some e => simp [ho] at h
    | none =>
      simp only [ho] at h ⊢
      cases hn : (send t s x).next with
      | error e => simp [hn] at h
      | ok s' => simp only [hn, Except.ok.injEq] at h ⊢; subst h; exact ⟨[_], _, rfl, .recv .., .one hn⟩
  err := by
    intro S x e h; cases S; rename_i s
    simp only [send] at h ⊢
    cases ho : op x with
    | some e => exact ⟨[_], close t s, [_], by simp, .recv .., .closed i, .close s⟩
    | none =>
      simp only [ho] at h ⊢
      cases hn : (send t s x).next with
      | ok s' => simp [hn] at h
      | error e' => exact ⟨[_], (send t s x).evs, [_], by simp, .recv .., .closed i, .fail s x e' hn⟩

theorem sliceResume_ok {i a b g ca} {t : Net α} {x : α} {st : SliceSt} {s : St t} {evs : List (Ev α)} {S'}
    (h : (sliceResume i a b g ca t x st s evs).next = .ok S') :
    (sliceResume i a b g ca t x st s evs).evs = evs ∧ S' = .slice st s := by
  unfold sliceResume at *
  split <;> simp_all

theorem sliceResume_err {i a b g ca} {t : Net α} {x : α} {st : SliceSt} {s : St t} {evs : List (Ev α)} {e}
    (h : (sliceResume i a b g ca t x st s evs).next = .error e) :
    (sliceResume i a b g ca t x st s evs).evs = evs ++ close t s ++ [.closed i] := by
  unfold sliceResume at *
  split <;> simp_all

theorem unary_slice (i a b g ca) (t : Net α) : Unary (.slice i a b g ca t) i t selSlice where
  ids := by simp [Net.ids]
  close := by rintro ⟨st, s⟩; exact ⟨_, rfl, .closed i⟩
  ok := by
    intro S x S' h; cases S; rename_i st s
    rcases sliceCases st with ⟨k, l, rfl⟩ | rfl | ⟨l, hl, rfl⟩
    · rw [send_slice_skip] at h ⊢
      obtain ⟨h1, rfl⟩ := sliceResume_ok h
      exact ⟨[], [], by simp [h1], .nil .., .idle s⟩
    · rw [send_slice_done] at h ⊢
      simp only [Except.ok.injEq] at h; subst h
      exact ⟨[], [], rfl, .nil .., .idle s⟩
    · rw [send_slice_pass _ _ _ _ _ _ _ _ _ hl] at h ⊢
      cases hn : (send t s x).next with
      | error e => simp [hn] at h
      | ok s' =>
        simp only [hn] at h ⊢
        obtain ⟨h1, rfl⟩ := sliceResume_ok h
        exact ⟨[], (send t s x).evs, by simp [h1], .nil .., .one hn⟩
  err := by
    intro S x e h; cases S; rename_i st s
    rcases sliceCases st with ⟨k, l, rfl⟩ | rfl | ⟨l, hl, rfl⟩
    · rw [send_slice_skip] at h ⊢
      have h1 := sliceResume_err h
      exact ⟨[], close t s, [.closed i], by simp [h1], .nil .., .closed i, .close s⟩
    · rw [send_slice_done] at h; simp at h
    · rw [send_slice_pass _ _ _ _ _ _ _ _ _ hl] at h ⊢
      cases hn : (send t s x).next with
      | error e => exact ⟨[], _, _, rfl, .nil .., .closed i, .fail s x e hn⟩
      | ok s' =>
        simp only [hn] at h ⊢
        have h1 := sliceResume_err h
        exact ⟨[], (send t s x).evs ++ close t s', [.closed i], by simp [h1], .nil .., .closed i,
          .step s x s' _ _ hn (.close s')⟩

/-! ### Events only concern components of the network -/

def EvsIn (ids : List Nat) (tr : List (Ev α)) : Prop := ∀ e ∈ tr, e.id ∈ ids

theorem EvsIn.nil (ids : List Nat) : EvsIn (α := α) ids [] := by intro e he; cases he

theorem EvsIn.append {ids : List Nat} {a b : List (Ev α)} (ha : EvsIn ids a) (hb : EvsIn ids b) :
    EvsIn ids (a ++ b) := by
  intro e he; rcases List.mem_append.1 he with h | h
  · exact ha e h
  · exact hb e h

theorem EvsIn.mono {ids ids' : List Nat} {a : List (Ev α)} (h : ∀ i ∈ ids, i ∈ ids')
    (ha : EvsIn ids a) : EvsIn ids' a := fun e he => h _ (ha e he)

theorem IsOwn.evsIn {i : Nat} {x : α} {own : List (Ev α)} (h : IsOwn i x own) : EvsIn [i] own := by
  rcases h with rfl | rfl <;> simp [EvsIn, Ev.id]
theorem IsFin.evsIn {i : Nat} {fin : List (Ev α)} (h : IsFin i fin) : EvsIn [i] fin := by
  rcases h with rfl | ⟨v, rfl⟩ <;> simp [EvsIn, Ev.id]

/-- Sends and closes of `n` only produce events of components of `n`. -/
def InIds (n : Net α) : Prop :=
  (∀ S, EvsIn n.ids (close n S)) ∧ ∀ S x, EvsIn n.ids (send n S x).evs

theorem InIds.act {n : Net α} (h : InIds n) {s evs out} (ha : Act n s evs out) : EvsIn n.ids evs := by
  induction ha with
  | idle => exact .nil _
  | close s => exact h.1 s
  | fail s x e _ => exact h.2 s x
  | step s x s' evs out _ _ ih => exact (h.2 s x).append ih

theorem Unary.inIds {n t : Net α} {i sel} (u : Unary n i t sel) (ht : InIds t) : InIds n := by
  have m1 : ∀ j ∈ [i], j ∈ n.ids := by simp [u.ids]
  have m2 : ∀ j ∈ t.ids, j ∈ n.ids := by simp +contextual [u.ids]
  constructor
  · intro S
    obtain ⟨fin, h, hf⟩ := u.close S
    rw [h]
    exact ((ht.1 _).mono m2).append (hf.evsIn.mono m1)
  · intro S x
    cases hn : (send n S x).next with
    | ok S' =>
      obtain ⟨own, evs, h, ho, ha⟩ := u.ok S x S' hn
      rw [h]
      exact (ho.evsIn.mono m1).append ((ht.act ha).mono m2)
    | error e =>
      obtain ⟨own, evs, fin, h, ho, hf, ha⟩ := u.err S x e hn
      rw [h]
      exact ((ho.evsIn.mono m1).append ((ht.act ha).mono m2)).append (hf.evsIn.mono m1)

/-- Same, for the targets of a fork. -/
def InIdsS (ts : Nets α) : Prop :=
  (∀ S, EvsIn ts.ids (closes ts S)) ∧ ∀ S x, EvsIn ts.ids (sends ts S x).2.1 ∧
    ∀ e cl, (sends ts S x).2.2 = .error (e, cl) → EvsIn ts.ids cl

mutual
theorem inIds : (n : Net α) → InIds n
  | .sink i eff => by
    refine ⟨?_, ?_⟩
    · intro S; simp [close, EvsIn, Net.ids, Ev.id]
    · intro S x; simp only [send]; split <;> simp [EvsIn, Net.ids, Ev.id]
  | .reduce i upd a => by
    refine ⟨?_, ?_⟩
    · intro S; cases S; simp [close, EvsIn, Net.ids, Ev.id]
    · intro S x; cases S; simp only [send]; split <;> simp [EvsIn, Net.ids, Ev.id]
  | .count i => by
    refine ⟨?_, ?_⟩
    · intro S; cases S; simp [close, EvsIn, Net.ids, Ev.id]
    · intro S x; cases S; simp [send, EvsIn, Net.ids, Ev.id]
  | .map i op t => (unary_map i op t).inIds (inIds t)
  | .mapIn i op t => (unary_mapIn i op t).inIds (inIds t)
  | .flatmap i op t => (unary_flatmap i op t).inIds (inIds t)
  | .flatmapIn i op t => (unary_flatmapIn i op t).inIds (inIds t)
  | .filter i op t => (unary_filter i op t).inIds (inIds t)
  | .countFilter i op t => (unary_countFilter i op t).inIds (inIds t)
  | .spy i op t => (unary_spy i op t).inIds (inIds t)
  | .slice i a b g ca t => (unary_slice i a b g ca t).inIds (inIds t)
  | .branch i a b => by
    have ha := inIds a
    have hb := inIds b
    have m0 : EvsIn (α := α) (Net.branch i a b).ids [.closed i] := by simp [EvsIn, Net.ids, Ev.id]
    have m1 : ∀ j ∈ a.ids, j ∈ (Net.branch i a b).ids := by simp +contextual [Net.ids]
    have m2 : ∀ j ∈ b.ids, j ∈ (Net.branch i a b).ids := by simp +contextual [Net.ids]
    refine ⟨?_, ?_⟩
    · intro S; cases S; rename_i sa sb
      exact (((hb.1 sb).mono m2).append ((ha.1 sa).mono m1)).append m0
    · intro S x; cases S; rename_i sa sb
      simp only [send]
      split
      · exact (((ha.2 sa x).mono m1).append ((hb.1 sb).mono m2)).append m0
      · split
        · exact ((ha.2 sa x).mono m1).append ((hb.2 _ _).mono m2)
        · exact ((((ha.2 sa x).mono m1).append ((hb.2 _ _).mono m2)).append ((ha.1 _).mono m1)).append m0
  | .fork i ts => by
    have h := inIdsS ts
    have m0 : EvsIn (α := α) (Net.fork i ts).ids [.closed i] := by simp [EvsIn, Net.ids, Ev.id]
    have m1 : ∀ j ∈ ts.ids, j ∈ (Net.fork i ts).ids := by simp +contextual [Net.ids]
    refine ⟨?_, ?_⟩
    · intro S; cases S; rename_i ss
      exact ((h.1 ss).mono m1).append m0
    · intro S x; cases S; rename_i ss
      simp only [send]
      split
      · exact (h.2 ss x).1.mono m1
      · rename_i e cl he
        exact (((h.2 ss x).1.mono m1).append (((h.2 ss x).2 e cl he).mono m1)).append m0
theorem inIdsS : (ts : Nets α) → InIdsS ts
  | .nil => by
    refine ⟨?_, ?_⟩
    · intro S; simp [closes, EvsIn]
    · intro S x; simp [sends, EvsIn]
  | .cons t ts => by
    have ht := inIds t
    have h := inIdsS ts
    have m1 : ∀ j ∈ t.ids, j ∈ (Nets.cons t ts).ids := by simp +contextual [Nets.ids]
    have m2 : ∀ j ∈ ts.ids, j ∈ (Nets.cons t ts).ids := by simp +contextual [Nets.ids]
    refine ⟨?_, ?_⟩
    · intro S; cases S; rename_i s ss
      exact ((ht.1 s).mono m1).append ((h.1 ss).mono m2)
    · intro S x; cases S; rename_i s ss
      simp only [sends]
      split
      · refine ⟨(ht.2 s x).mono m1, ?_⟩
        intro e cl hc; simp only [Except.error.injEq, Prod.mk.injEq] at hc
        rw [← hc.2]; exact (h.1 ss).mono m2
      · split
        · refine ⟨((ht.2 s x).mono m1).append ((h.2 _ _).1.mono m2), ?_⟩
          intro e cl hc; simp at hc
        · rename_i e cl he
          refine ⟨((ht.2 s x).mono m1).append ((h.2 _ _).1.mono m2), ?_⟩
          intro e cl hc; simp only [Except.error.injEq, Prod.mk.injEq] at hc
          rw [← hc.2]; exact ((ht.1 _).mono m1).append (((h.2 _ _).2 _ _ he).mono m2)
end

/-! ### Projections -/

theorem only_append (ids : List Nat) (a b : List (Ev α)) : only ids (a ++ b) = only ids a ++ only ids b := by
  simp [only]

theorem only_self {ids : List Nat} {a : List (Ev α)} (h : EvsIn ids a) : only ids a = a := by
  simp only [only, List.filter_eq_self, decide_eq_true_eq]; exact h

theorem only_none {ids ids' : List Nat} {a : List (Ev α)} (h : EvsIn ids' a)
    (hd : ∀ j ∈ ids', j ∉ ids) : only ids a = [] := by
  simp only [only, List.filter_eq_nil_iff, decide_eq_true_eq]; exact fun e he => hd _ (h e he)

theorem only_only {ids ids' : List Nat} (h : ∀ j ∈ ids, j ∈ ids') (a : List (Ev α)) :
    only ids (only ids' a) = only ids a := by
  simp only [only, List.filter_filter]
  congr 1
  funext e
  by_cases h1 : e.id ∈ ids
  · simp [h1, h _ h1]
  · simp [h1]

/-- A use of `n` induces a use of the part `t`. -/
def Follows (n : Net α) (t : Net α) (R : St n → St t → Prop) : Prop :=
  ∀ S s evs out, Act n S evs out → R S s →
    ∃ o, Act t s (only t.ids evs) o ∧ (∀ S', out = some S' → ∃ s', o = some s' ∧ R S' s') ∧
      (out = none → o = none)

/-- Enough to check closes and single sends. -/
theorem follows_of {n t : Net α} {R : St n → St t → Prop}
    (hc : ∀ S s, R S s → only t.ids (close n S) = close t s)
    (hok : ∀ S s x S', R S s → (send n S x).next = .ok S' →
      ∃ s', R S' s' ∧ Act t s (only t.ids (send n S x).evs) (some s'))
    (herr : ∀ S s x e, R S s → (send n S x).next = .error e →
      Act t s (only t.ids (send n S x).evs) none) : Follows n t R := by
  intro S s evs out ha
  induction ha generalizing s with
  | idle S => intro hr; exact ⟨some s, by simpa [only] using Act.idle s, by simp; exact hr, by simp⟩
  | close S => intro hr; exact ⟨none, by rw [hc S s hr]; exact .close s, by simp, by simp⟩
  | fail S x e he => intro hr; exact ⟨none, herr S s x e hr he, by simp, by simp⟩
  | step S x S' evs out hn _ ih =>
    intro hr
    obtain ⟨s', hr', ha'⟩ := hok S s x S' hr hn
    obtain ⟨o, ho, h1, h2⟩ := ih _ hr'
    exact ⟨o, by rw [only_append]; exact ha'.trans ho, h1, h2⟩

theorem Unary.follows {n t : Net α} {i sel} (u : Unary n i t sel) (hi : i ∉ t.ids) :
    Follows n t (fun S s => sel S = s) := by
  have hd : ∀ j ∈ [i], j ∉ t.ids := by simpa using hi
  apply follows_of
  · rintro S s rfl
    obtain ⟨fin, h, hf⟩ := u.close S
    rw [h, only_append, only_self ((Dataflow.inIds t).1 _), only_none hf.evsIn hd, List.append_nil]
  · rintro S s x S' rfl hn
    obtain ⟨own, evs, h, ho, ha⟩ := u.ok S x S' hn
    refine ⟨_, rfl, ?_⟩
    rw [h, only_append, only_none ho.evsIn hd, only_self ((Dataflow.inIds t).act ha)]
    simpa using ha
  · rintro S s x e rfl hn
    obtain ⟨own, evs, fin, h, ho, hf, ha⟩ := u.err S x e hn
    rw [h, only_append, only_append, only_none ho.evsIn hd, only_self ((Dataflow.inIds t).act ha),
      only_none hf.evsIn hd]
    simpa using ha


theorem follows_side {i} {a b : Net α} (hn : (Net.branch i a b).ids.Nodup) :
    Follows (.branch i a b) a (fun S s => ∃ sb, S = .branch s sb) := by
  simp only [Net.ids, List.nodup_cons, List.mem_append, List.nodup_append] at hn
  have d0 : ∀ j ∈ [i], j ∉ a.ids := by simpa using fun h => hn.1 (Or.inl h)
  have d1 : ∀ j ∈ b.ids, j ∉ a.ids := fun j hb ha => hn.2.2.2 j ha j hb rfl
  have e0 : only a.ids [Ev.closed (α := α) i] = [] := only_none (ids' := [i]) (by simp [EvsIn, Ev.id]) d0
  have hc : ∀ s, only a.ids (close b s) = [] := fun s => only_none ((inIds b).1 s) d1
  have hs : ∀ s x, only a.ids (send b s x).evs = [] := fun s x => only_none ((inIds b).2 s x) d1
  apply follows_of
  · rintro S s ⟨sb, rfl⟩
    simp only [close, only_append, hc, e0, only_self ((inIds a).1 s)]; simp
  · rintro S s x S' ⟨sb, rfl⟩ h
    simp only [send] at h ⊢
    cases h1 : (send a s x).next with
    | error e => simp [h1] at h
    | ok sa' =>
      simp only [h1] at h ⊢
      cases h2 : (send b sb (send a s x).item).next with
      | error e => simp [h2] at h
      | ok sb' =>
        simp only [h2, Except.ok.injEq] at h ⊢
        refine ⟨sa', ⟨sb', h.symm⟩, ?_⟩
        rw [only_append, hs, only_self ((inIds a).2 s x)]
        simpa using Act.one h1
  · rintro S s x e ⟨sb, rfl⟩ h
    simp only [send] at h ⊢
    cases h1 : (send a s x).next with
    | error e =>
      simp only [only_append, hc, e0, only_self ((inIds a).2 s x), List.append_nil]
      exact .fail s x e h1
    | ok sa' =>
      simp only [h1] at h ⊢
      cases h2 : (send b sb (send a s x).item).next with
      | ok sb' => simp [h2] at h
      | error e =>
        simp only [only_append, hc, hs, e0, only_self ((inIds a).2 s x), only_self ((inIds a).1 sa'), List.append_nil]
        exact .step s x sa' _ _ h1 (.close sa')

theorem follows_down {i} {a b : Net α} (hn : (Net.branch i a b).ids.Nodup) :
    Follows (.branch i a b) b (fun S s => ∃ sa, S = .branch sa s) := by
  simp only [Net.ids, List.nodup_cons, List.mem_append, List.nodup_append] at hn
  have d0 : ∀ j ∈ [i], j ∉ b.ids := by simpa using fun h => hn.1 (Or.inr h)
  have d1 : ∀ j ∈ a.ids, j ∉ b.ids := fun j ha hb => hn.2.2.2 j ha j hb rfl
  have e0 : only b.ids [Ev.closed (α := α) i] = [] := only_none (ids' := [i]) (by simp [EvsIn, Ev.id]) d0
  have hc : ∀ s, only b.ids (close a s) = [] := fun s => only_none ((inIds a).1 s) d1
  have hs : ∀ s x, only b.ids (send a s x).evs = [] := fun s x => only_none ((inIds a).2 s x) d1
  apply follows_of
  · rintro S s ⟨sb, rfl⟩
    simp only [close, only_append, hc, e0, only_self ((inIds b).1 s)]; simp
  · rintro S s x S' ⟨sa, rfl⟩ h
    simp only [send] at h ⊢
    cases h1 : (send a sa x).next with
    | error e => simp [h1] at h
    | ok sa' =>
      simp only [h1] at h ⊢
      cases h2 : (send b s (send a sa x).item).next with
      | error e => simp [h2] at h
      | ok sb' =>
        simp only [h2, Except.ok.injEq] at h ⊢
        refine ⟨sb', ⟨sa', h.symm⟩, ?_⟩
        rw [only_append, hs, only_self ((inIds b).2 _ _)]
        simpa using Act.one h2
  · rintro S s x e ⟨sa, rfl⟩ h
    simp only [send] at h ⊢
    cases h1 : (send a sa x).next with
    | error e =>
      simp only [only_append, hs, e0, only_self ((inIds b).1 s), List.append_nil, List.nil_append]
      exact .close s
    | ok sa' =>
      simp only [h1] at h ⊢
      cases h2 : (send b s (send a sa x).item).next with
      | ok sb' => simp [h2] at h
      | error e =>
        simp only [only_append, hc, hs, e0, only_self ((inIds b).2 _ _), List.append_nil, List.nil_append]
        exact .fail s _ e h2

/-- `t` is the `k`-th target and has state `s`. -/
inductive TargetSt (t : Net α) (s : St t) : Nat → (ts : Nets α) → Sts ts → Prop where
  | head {ts ss} : TargetSt t s 0 (.cons t ts) (.cons s ss)
  | tail {k t' ts s' ss} : TargetSt t s k ts ss → TargetSt t s (k + 1) (.cons t' ts) (.cons s' ss)

theorem Target.ids_sub {t : Net α} {k ts} (h : Target t k ts) : ∀ j ∈ t.ids, j ∈ ts.ids := by
  induction h with
  | head => intro j hj; simp [Nets.ids, hj]
  | tail _ ih => intro j hj; simp [Nets.ids, ih j hj]

theorem Target.nodup {t : Net α} {k ts} (h : Target t k ts) (hn : ts.ids.Nodup) : t.ids.Nodup := by
  induction h with
  | head => simp only [Nets.ids, List.nodup_append] at hn; exact hn.1
  | tail _ ih => simp only [Nets.ids, List.nodup_append] at hn; exact ih hn.2.1

theorem TargetSt.target {t : Net α} {s k ts ss} (h : TargetSt t s k ts ss) : Target t k ts := by
  induction h with
  | head => exact .head
  | tail _ ih => exact .tail ih

theorem closes_target {t : Net α} {s k ts ss} (h : TargetSt t s k ts ss) (hn : ts.ids.Nodup) :
    only t.ids (closes ts ss) = close t s := by
  induction h with
  | @head ts ss =>
    simp only [Nets.ids, List.nodup_append] at hn
    rw [closes, only_append, only_self ((inIds t).1 s),
      only_none ((inIdsS ts).1 ss) (fun j hb ha => hn.2.2 j ha j hb rfl), List.append_nil]
  | @tail k t' ts s' ss h ih =>
    simp only [Nets.ids, List.nodup_append] at hn
    rw [closes, only_append, ih hn.2.1,
      only_none ((inIds t').1 s') (fun j hb ha => hn.2.2 j hb j (h.target.ids_sub j ha) rfl), List.nil_append]

/-- What one item does to the `k`-th target of a fork, when no target raises. -/
theorem sends_ok_target {t : Net α} {s k ts ss} (h : TargetSt t s k ts ss) (hn : ts.ids.Nodup) :
    ∀ {x ss'}, (sends ts ss x).2.2 = .ok ss' → ∃ y s', (send t s y).next = .ok s' ∧
      TargetSt t s' k ts ss' ∧ only t.ids (sends ts ss x).2.1 = (send t s y).evs := by
  induction h with
  | @head ts ss =>
    intro x ss' hs
    simp only [Nets.ids, List.nodup_append] at hn
    simp only [sends] at hs ⊢
    cases h1 : (send t s x).next with
    | error e => simp [h1] at hs
    | ok s' =>
      simp only [h1] at hs ⊢
      cases h2 : (sends ts ss (send t s x).item).2.2 with
      | error e => simp [h2] at hs
      | ok q =>
        simp only [h2, Except.ok.injEq] at hs ⊢
        subst hs
        refine ⟨x, s', h1, .head, ?_⟩
        rw [only_append, only_self ((inIds t).2 s x),
          only_none ((inIdsS ts).2 ss _).1 (fun j hb ha => hn.2.2 j ha j hb rfl), List.append_nil]
  | @tail k t' ts s0 ss h ih =>
    intro x ss' hs
    simp only [Nets.ids, List.nodup_append] at hn
    simp only [sends] at hs ⊢
    cases h1 : (send t' s0 x).next with
    | error e => simp [h1] at hs
    | ok s' =>
      simp only [h1] at hs ⊢
      cases h2 : (sends ts ss (send t' s0 x).item).2.2 with
      | error e => simp [h2] at hs
      | ok q =>
        simp only [h2, Except.ok.injEq] at hs ⊢
        subst hs
        obtain ⟨y, s'', a1, a2, a3⟩ := ih hn.2.1 h2
        refine ⟨y, s'', a1, .tail a2, ?_⟩
        rw [only_append, a3,
          only_none ((inIds t').2 s0 x) (fun j hb ha => hn.2.2 j hb j (h.target.ids_sub j ha) rfl), List.nil_append]

/-- What one item does to the `k`-th target of a fork, when some target raises. -/
theorem sends_err_target {t : Net α} {s k ts ss} (h : TargetSt t s k ts ss) (hn : ts.ids.Nodup) :
    ∀ {x e cl}, (sends ts ss x).2.2 = .error (e, cl) →
      Act t s (only t.ids ((sends ts ss x).2.1 ++ cl)) none := by
  induction h with
  | @head ts ss =>
    intro x e cl hs
    simp only [Nets.ids, List.nodup_append] at hn
    have hd : ∀ j ∈ ts.ids, j ∉ t.ids := fun j hb ha => hn.2.2 j ha j hb rfl
    simp only [sends] at hs ⊢
    cases h1 : (send t s x).next with
    | error e =>
      simp only [h1, Except.error.injEq, Prod.mk.injEq] at hs ⊢
      rw [← hs.2, only_append, only_self ((inIds t).2 s x), only_none ((inIdsS ts).1 ss) hd, List.append_nil]
      exact .fail s x e h1
    | ok s' =>
      simp only [h1] at hs ⊢
      cases h2 : (sends ts ss (send t s x).item).2.2 with
      | ok q => simp [h2] at hs
      | error q =>
        obtain ⟨e', cl'⟩ := q
        simp only [h2, Except.error.injEq, Prod.mk.injEq] at hs ⊢
        rw [← hs.2]
        simp only [only_append]
        rw [only_self ((inIds t).2 s x),
          only_none ((inIdsS ts).2 ss _).1 hd, only_none (((inIdsS ts).2 ss _).2 _ _ h2) hd,
          only_self ((inIds t).1 s'), List.append_nil, List.append_nil]
        exact .step s x s' _ _ h1 (.close s')
  | @tail k t' ts s0 ss h ih =>
    intro x e cl hs
    simp only [Nets.ids, List.nodup_append] at hn
    have hd : ∀ j ∈ t'.ids, j ∉ t.ids := fun j hb ha => hn.2.2 j hb j (h.target.ids_sub j ha) rfl
    simp only [sends] at hs ⊢
    cases h1 : (send t' s0 x).next with
    | error e =>
      simp only [h1, Except.error.injEq, Prod.mk.injEq] at hs ⊢
      rw [← hs.2, only_append, only_none ((inIds t').2 s0 x) hd, closes_target h hn.2.1, List.nil_append]
      exact .close s
    | ok s' =>
      simp only [h1] at hs ⊢
      cases h2 : (sends ts ss (send t' s0 x).item).2.2 with
      | ok q => simp [h2] at hs
      | error q =>
        obtain ⟨e', cl'⟩ := q
        simp only [h2, Except.error.injEq, Prod.mk.injEq] at hs ⊢
        rw [← hs.2]
        have := ih hn.2.1 h2
        simp only [only_append] at this ⊢
        rw [only_none ((inIds t').2 s0 x) hd, only_none ((inIds t').1 s') hd, List.nil_append, List.nil_append]
        exact this

theorem follows_target {i k} {t : Net α} {ts : Nets α} (hn : (Net.fork i ts).ids.Nodup)
    (hk : Target t k ts) :
    Follows (.fork i ts) t (fun S s => ∃ ss, S = .fork ss ∧ TargetSt t s k ts ss) := by
  simp only [Net.ids, List.nodup_cons] at hn
  have d0 : ∀ j ∈ [i], j ∉ t.ids := by simpa using fun h => hn.1 (hk.ids_sub _ h)
  have e0 : only t.ids [Ev.closed (α := α) i] = [] := only_none (ids' := [i]) (by simp [EvsIn, Ev.id]) d0
  apply follows_of
  · rintro S s ⟨ss, rfl, h⟩
    rw [close, only_append, e0, closes_target h hn.2, List.append_nil]
  · rintro S s x S' ⟨ss, rfl, h⟩ hs
    simp only [send] at hs ⊢
    cases h1 : (sends ts ss x).2.2 with
    | error q => simp [h1] at hs
    | ok ss' =>
      simp only [h1, Except.ok.injEq] at hs ⊢
      obtain ⟨y, s', a1, a2, a3⟩ := sends_ok_target h hn.2 h1
      refine ⟨s', ⟨ss', hs.symm, a2⟩, ?_⟩
      rw [a3]; exact .one a1
  · rintro S s x e ⟨ss, rfl, h⟩ hs
    simp only [send] at hs ⊢
    cases h1 : (sends ts ss x).2.2 with
    | ok q => simp [h1] at hs
    | error q =>
      obtain ⟨e', cl⟩ := q
      simp only
      rw [only_append, e0, List.append_nil]
      exact sends_err_target h hn.2 h1

/-! ### Locality at any depth -/

theorem Follows.comp {n t c : Net α} {R1 : St n → St t → Prop} {R2 : St t → St c → Prop}
    (h1 : Follows n t R1) (h2 : Follows t c R2) (hs : ∀ j ∈ c.ids, j ∈ t.ids) :
    Follows n c (fun S s => ∃ m, R1 S m ∧ R2 m s) := by
  rintro S s evs out ha ⟨m, hr1, hr2⟩
  obtain ⟨o, a1, b1, c1⟩ := h1 _ _ _ _ ha hr1
  obtain ⟨o', a2, b2, c2⟩ := h2 _ _ _ _ a1 hr2
  rw [only_only hs] at a2
  refine ⟨o', a2, ?_, fun h => c2 (c1 h)⟩
  intro S' hS'
  obtain ⟨m', hm', hr'⟩ := b1 S' hS'
  obtain ⟨s', hs', hr''⟩ := b2 m' hm'
  exact ⟨s', hs', m', hr', hr''⟩

theorem inits_target {t : Net α} {k ts} (h : Target t k ts) : TargetSt t (init t) k ts (inits ts) := by
  induction h with
  | head => exact .head
  | tail _ ih => exact .tail ih

/-- A part of `n` behaves, in every use of `n`, as a generator that is used on its own. -/
def Inside (c n : Net α) : Prop :=
  (∀ j ∈ c.ids, j ∈ n.ids) ∧ ∃ R : St n → St c → Prop, R (init n) (init c) ∧ Follows n c R

theorem Inside.unary {c n t : Net α} {i sel} (u : Unary n i t sel) (h0 : sel (init n) = init t)
    (hn : n.ids.Nodup) (ih : t.ids.Nodup → Inside c t) : Inside c n := by
  rw [u.ids, List.nodup_cons] at hn
  obtain ⟨hs, R, hr, hf⟩ := ih hn.2
  refine ⟨fun j hj => by rw [u.ids]; simp [hs j hj], _, ⟨init t, h0, hr⟩, Follows.comp (u.follows hn.1) hf hs⟩

/-- Relation preserved by every use of `n`. -/
theorem inside_follows {c n : Net α} (hp : Part c n) (hn : n.ids.Nodup) :
    Inside c n := by
  induction hp with
  | refl =>
    refine ⟨fun _ h => h, (fun S s => S = s), rfl, ?_⟩
    apply follows_of
    · rintro S s rfl; exact only_self ((inIds _).1 _)
    · rintro S s x S' rfl h; exact ⟨S', rfl, by rw [only_self ((inIds _).2 _ _)]; exact .one h⟩
    · rintro S s x e rfl h; rw [only_self ((inIds _).2 _ _)]; exact .fail S x e h
  | map _ ih => exact .unary (unary_map ..) (by simp [init, selMap]) hn ih
  | mapIn _ ih => exact .unary (unary_mapIn ..) (by simp [init, selMapIn]) hn ih
  | flatmap _ ih => exact .unary (unary_flatmap ..) (by simp [init, selFlatmap]) hn ih
  | flatmapIn _ ih => exact .unary (unary_flatmapIn ..) (by simp [init, selFlatmapIn]) hn ih
  | filter _ ih => exact .unary (unary_filter ..) (by simp [init, selFilter]) hn ih
  | countFilter _ ih => exact .unary (unary_countFilter ..) (by simp [init, selCountFilter]) hn ih
  | spy _ ih => exact .unary (unary_spy ..) (by simp [init, selSpy]) hn ih
  | slice _ ih => exact .unary (unary_slice ..) (by simp [init, selSlice]) hn ih
  | @branchSide i a b _ ih =>
    have hn' := hn
    simp only [Net.ids, List.nodup_cons, List.nodup_append] at hn'
    obtain ⟨hs, R, hr, hf⟩ := ih hn'.2.1
    exact ⟨fun j hj => by simp [Net.ids, hs j hj], _, ⟨init a, ⟨init b, by simp [init]⟩, hr⟩,
      Follows.comp (follows_side hn) hf hs⟩
  | @branchDown i a b _ ih =>
    have hn' := hn
    simp only [Net.ids, List.nodup_cons, List.nodup_append] at hn'
    obtain ⟨hs, R, hr, hf⟩ := ih hn'.2.2.1
    exact ⟨fun j hj => by simp [Net.ids, hs j hj], _, ⟨init b, ⟨init a, by simp [init]⟩, hr⟩,
      Follows.comp (follows_down hn) hf hs⟩
  | @fork i ts t k hk _ ih =>
    have hn' := hn
    simp only [Net.ids, List.nodup_cons] at hn'
    obtain ⟨hs, R, hr, hf⟩ := ih (hk.nodup hn'.2)
    exact ⟨fun j hj => by simp [Net.ids, hk.ids_sub j (hs j hj)], _,
      ⟨init t, ⟨inits ts, by simp [init], inits_target hk⟩, hr⟩, Follows.comp (follows_target hn hk) hf hs⟩

/-- Locality: what a part `c` of a network shows in a run is what `c` shows when run alone on some
source. -/
theorem local_run {c n : Net α} (hp : Part c n) (hn : n.ids.Nodup) (xs : List α) :
    ∃ ys, only c.ids (push xs n).trace = (push ys c).trace := by
  obtain ⟨_, R, hr, hf⟩ := inside_follows hp hn
  obtain ⟨o, ha, _, ho⟩ := hf _ _ _ _ (Act.pushFrom xs (init n)) hr
  rw [ho rfl] at ha
  exact ha.run

end Verif.Dataflow
