import Verif.Spec.FixedPars
import Mathlib.Data.List.Perm.Subperm
import Mathlib.Data.List.Nodup
import Mathlib.Tactic.Linarith
import Mathlib.Tactic.Positivity
import Mathlib.Algebra.Order.Field.Rat
import Mathlib.Algebra.Order.BigOperators.Group.List
/-!
# C80: functions with fixed parameters; C81: fits
-/
namespace Verif.FixedPars

theorem get_of_mem {kwargs : List (String × Option ℚ)} (hk : (kwargs.map Prod.fst).Nodup) {n : String} {v : Option ℚ} (h : (n, v) ∈ kwargs) : get kwargs n = v := by
  induction kwargs with
  | nil => cases h
  | cons e es ih =>
    rw [get, List.find?_cons]
    rw [List.map_cons, List.nodup_cons] at hk
    rcases List.mem_cons.1 h with rfl | h
    · simp
    · have hne : (e.1 == n) = false := by
        rw [beq_eq_false_iff_ne]
        rintro rfl
        exact hk.1 (List.mem_map.2 ⟨(e.1, v), h, rfl⟩)
      rw [hne]
      exact ih hk.2 h

theorem get_of_not_mem {kwargs : List (String × Option ℚ)} {n : String} (h : n ∉ kwargs.map Prod.fst) : get kwargs n = none := by
  rw [get, List.find?_eq_none.2]
  · rfl
  · intro e he hb
    exact h (List.mem_map.2 ⟨e, he, by simpa using hb⟩)

theorem mem_of_get {kwargs : List (String × Option ℚ)} {n : String} {q : ℚ} (h : get kwargs n = some q) : n ∈ kwargs.map Prod.fst := by
  by_contra hn
  rw [get_of_not_mem hn] at h
  cases h

theorem count_free (names : List String) (kwargs : List (String × Option ℚ)) :
    ((names.map (get kwargs)).map Option.isNone).count true + (names.filter fun n => (get kwargs n).isSome).length = names.length := by
  induction names with
  | nil => rfl
  | cons n ns ih =>
    cases hg : get kwargs n with
    | none => simp [hg] at ih ⊢; omega
    | some q => simp [hg] at ih ⊢; omega

/-- The third check: all the names given are parameters, with a value. -/
theorem enough_iff {names : List String} {kwargs : List (String × Option ℚ)} (hn : names.Nodup) (hk : (kwargs.map Prod.fst).Nodup) :
    ¬ ((((names.map (get kwargs)).map Option.isNone).count true : Int) > (names.length : Int) - kwargs.length) ↔ ∀ e ∈ kwargs, e.1 ∈ names ∧ e.2 ≠ none := by
  have hc := count_free names kwargs
  have h1 : ¬ ((((names.map (get kwargs)).map Option.isNone).count true : Int) > (names.length : Int) - kwargs.length) ↔ kwargs.length ≤ (names.filter fun n => (get kwargs n).isSome).length := by omega
  rw [h1]
  have hsub : (names.filter fun n => (get kwargs n).isSome) ⊆ kwargs.map Prod.fst := by
    intro n h
    rw [List.mem_filter, Option.isSome_iff_exists] at h
    obtain ⟨_, q, hq⟩ := h
    exact mem_of_get hq
  constructor
  · intro hle e he
    have hp := ((hn.filter _).subperm hsub).perm_of_length_le (by rw [List.length_map]; exact hle)
    have hm : e.1 ∈ names.filter fun n => (get kwargs n).isSome := hp.mem_iff.2 (List.mem_map_of_mem he)
    rw [List.mem_filter] at hm
    refine ⟨hm.1, ?_⟩
    rw [get_of_mem hk (show (e.1, e.2) ∈ kwargs from he)] at hm
    intro h
    rw [h] at hm
    cases hm.2
  · intro h
    have : (kwargs.map Prod.fst).length ≤ (names.filter fun n => (get kwargs n).isSome).length := by
      apply (hk.subperm _).length_le
      intro n hn
      obtain ⟨e, he, rfl⟩ := List.mem_map.1 hn
      rw [List.mem_filter, get_of_mem hk (show (e.1, e.2) ∈ kwargs from he)]
      exact ⟨(h e he).1, by rw [Option.isSome_iff_ne_none]; exact (h e he).2⟩
    rwa [List.length_map] at this

/-- **C80** Parameters can be fixed if and only if at least one name is given, all are parameters of the function with a value other than NaN, and some parameter is left free; otherwise `ValueError` is raised. -/
theorem fixed_accepts {X R : Type} (fn : Fn X R) (kwargs : List (String × Option ℚ)) (hn : (params fn).Nodup) (hk : (kwargs.map Prod.fst).Nodup) :
    ((kwargs ≠ [] ∧ (∀ e ∈ kwargs, e.1 ∈ params fn ∧ e.2 ≠ none) ∧ freeNames fn kwargs ≠ []) → ∃ f, fixedParameters fn kwargs = .ok f ∧ f.names = fn.names.take 1 ++ freeNames fn kwargs) ∧
    (¬ (kwargs ≠ [] ∧ (∀ e ∈ kwargs, e.1 ∈ params fn ∧ e.2 ≠ none) ∧ freeNames fn kwargs ≠ []) → fixedParameters fn kwargs = .error .valueError) := by
  have he := enough_iff hn hk
  rw [params] at he hn
  rw [fixedParameters, params]
  constructor
  · rintro ⟨h1, h2, h3⟩
    have hall : ∀ n ∈ fn.names.tail, ((get kwargs n).isNone = true ↔ n ∉ kwargs.map Prod.fst) := by
      intro n _
      constructor
      · intro h hm
        obtain ⟨e, he, rfl⟩ := List.mem_map.1 hm
        rw [get_of_mem hk (show (e.1, e.2) ∈ kwargs from he)] at h
        exact (h2 e he).2 (Option.isNone_iff_eq_none.1 h)
      · intro h; rw [get_of_not_mem h]; rfl
    have hmask : ∀ l : List String, (∀ n ∈ l, ((get kwargs n).isNone = true ↔ n ∉ kwargs.map Prod.fst)) → masked ((l.map (get kwargs)).map Option.isNone) l = l.filter fun n => decide (n ∉ kwargs.map Prod.fst) := by
      intro l
      induction l with
      | nil => intro _; rfl
      | cons n l ih =>
        intro h
        have hn := h n (by simp)
        rw [List.map_cons, List.map_cons, List.filter_cons]
        by_cases hb : n ∈ kwargs.map Prod.fst
        · have : (get kwargs n).isNone = false := by
            rw [Bool.eq_false_iff]; intro h; exact (hn.1 h) hb
          rw [this, masked, if_neg (by simpa using hb)]
          exact ih fun m hm => h m (List.mem_cons_of_mem _ hm)
        · rw [hn.2 hb, masked, if_pos (by simpa using hb)]
          rw [ih fun m hm => h m (List.mem_cons_of_mem _ hm)]
    rw [if_neg, if_neg, if_neg (he.2 h2)]
    · refine ⟨_, rfl, ?_⟩
      rw [Fixed.names, freeNames, params]
      simp only
      rw [hmask _ hall]
    · rw [freeNames, params] at h3
      obtain ⟨n, hn⟩ := List.exists_mem_of_ne_nil _ h3
      rw [List.mem_filter, decide_eq_true_iff] at hn
      rw [Bool.not_eq_true', Bool.not_eq_false, List.any_eq_true]
      exact ⟨true, List.mem_map.2 ⟨get kwargs n, List.mem_map_of_mem hn.1, (hall n hn.1).2 hn.2⟩, rfl⟩
    · obtain ⟨e, hem⟩ := List.exists_mem_of_ne_nil _ h1
      rw [List.all_eq_true]
      intro h
      have := h _ (List.mem_map_of_mem (List.mem_map_of_mem (h2 e hem).1))
      exact ((hall e.1 (h2 e hem).1).1 this) (List.mem_map_of_mem hem)
  · intro h
    split_ifs with g1 g2 g3
    · rfl
    · rfl
    · rfl
    · exfalso
      apply h
      have h2 := he.1 g3
      refine ⟨?_, h2, ?_⟩
      · rintro rfl
        apply g1
        rw [List.all_eq_true]
        intro b hb
        obtain ⟨v, hv, rfl⟩ := List.mem_map.1 hb
        obtain ⟨n, _, rfl⟩ := List.mem_map.1 hv
        rfl
      · intro h0
        apply g2
        rw [Bool.not_eq_true', List.any_eq_false]
        intro b hb
        obtain ⟨v, hv, rfl⟩ := List.mem_map.1 hb
        obtain ⟨n, hnm, rfl⟩ := List.mem_map.1 hv
        rw [freeNames, params, List.filter_eq_nil_iff] at h0
        have := h0 n hnm
        rw [decide_eq_true_iff, not_not] at this
        obtain ⟨e, he', rfl⟩ := List.mem_map.1 this
        rw [get_of_mem hk (show (e.1, e.2) ∈ kwargs from he')]
        simpa [Option.isNone_iff_eq_none] using (h2 e he').2

/-- A function `a + b*x + c*x^2` with its arguments. -/
def parabola : Fn ℚ ℚ := ⟨["x", "a", "b", "c"], fun x ps => match ps with
  | [some a, some b, some c] => .ok (a + b * x + c * x ^ 2)
  | _ => .error .typeError⟩

example : ((fixedParameters parabola [("b", some 3)]).toOption.map Fixed.names) = some ["x", "a", "c"] ∧
    (fixedParameters parabola [("b", none)]).toOption.isNone ∧ (fixedParameters parabola [("d", some 1), ("b", some 3)]).toOption.isNone ∧
    (fixedParameters parabola [("a", some 1), ("b", some 3), ("c", some 0)]).toOption.isNone := by decide +kernel

/-! ### Calls -/

theorem place_length : ∀ (free : List Bool) (args pars : List (Option ℚ)), (place free args pars).length = args.length
  | [], [], _ => rfl
  | [], _ :: _, _ => rfl
  | true :: _, [], [] => rfl
  | true :: _, [], _ :: _ => rfl
  | false :: _, [], [] => rfl
  | false :: _, [], _ :: _ => rfl
  | true :: free, _ :: args, [] => by simp [place]
  | true :: free, _ :: args, _ :: pars => by simp [place, place_length free args pars]
  | false :: free, _ :: args, pars => by simp [place, place_length free args pars]

/-- A second assignment replaces the first one. -/
theorem place_place : ∀ (free : List Bool) (args p q : List (Option ℚ)), p.length = free.count true → q.length = free.count true → place free (place free args p) q = place free args q
  | [], args, p, q, _, _ => by cases args <;> simp [place]
  | true :: free, [], p, q, _, _ => by cases p <;> cases q <;> simp [place]
  | false :: free, [], p, q, _, _ => by simp [place]
  | true :: free, a :: args, [], q, hp, _ => by simp at hp
  | true :: free, a :: args, _ :: p, [], _, hq => by simp at hq
  | true :: free, a :: args, x :: p, y :: q, hp, hq => by
    simp only [place]
    rw [place_place free args p q (by simpa using hp) (by simpa using hq)]
  | false :: free, a :: args, p, q, hp, hq => by
    simp only [place]
    rw [place_place free args p q (by simpa using hp) (by simpa using hq)]

theorem assign_assign {free : List Bool} {args p args' : List (Option ℚ)} (h : assign free args p = .ok args') (q : List (Option ℚ)) : assign free args' q = assign free args q := by
  have hp : ∃ p', p'.length = free.count true ∧ args' = place free args p' := by
    rw [assign] at h
    split_ifs at h with h1 h2
    · exact ⟨p, h1, (Except.ok.inj h).symm⟩
    · exact ⟨_, by simp, (Except.ok.inj h).symm⟩
  obtain ⟨p', hl, rfl⟩ := hp
  rw [assign, assign]
  split_ifs with h1 h2
  · rw [place_place _ _ _ _ hl h1]
  · rw [place_place _ _ _ _ hl (by simp)]
  · rfl

theorem call_same {X R : Type} (f : Fixed X R) (x : X) (p : List (Option ℚ)) (y : X) (q : List (Option ℚ)) : ((f.call x p).2.call y q).1 = (f.call y q).1 := by
  cases h : assign f.free f.allArgs p with
  | error e => rw [show (f.call x p).2 = f by rw [Fixed.call, h]]
  | ok args =>
    rw [show (f.call x p).2 = { f with allArgs := args } by rw [Fixed.call, h]]
    rw [Fixed.call, Fixed.call]
    simp only [assign_assign h q]
    cases assign f.free f.allArgs q <;> rfl

/-- **C80** The value does not depend on the previous calls (also those that fail). -/
theorem history_independent {X R : Type} (f : Fixed X R) (cs : List (X × List (Option ℚ))) : f.calls cs = cs.map fun c => (f.call c.1 c.2).1 := by
  induction cs generalizing f with
  | nil => rfl
  | cons c cs ih =>
    rw [Fixed.calls, ih, List.map_cons]
    congr 1
    apply List.map_congr_left
    intro d _
    exact call_same f c.1 c.2 d.1 d.2

example : (fixedParameters parabola [("b", some 3)]).toOption.map (fun f => f.calls [(2, [some 1, some 0]), (2, [some 1, some 1, some 1]), (2, [some 5]), (2, [some 1, some 0])]) =
    some [.ok 7, .error .valueError, .ok 31, .ok 7] := by decide +kernel

/-- Where each value goes. -/
theorem place_get (kwargs : List (String × Option ℚ)) (hk : (kwargs.map Prod.fst).Nodup) :
    ∀ (names : List String) (pars : List (Option ℚ)), names.Nodup → (∀ n ∈ names, ((get kwargs n).isNone = true ↔ n ∉ kwargs.map Prod.fst)) →
      ∀ (i : Nat) (n : String), names[i]? = some n →
        (∀ v, (n, v) ∈ kwargs → (place ((names.map (get kwargs)).map Option.isNone) (names.map (get kwargs)) pars)[i]? = some v) ∧
        (∀ k, (names.filter fun n => decide (n ∉ kwargs.map Prod.fst))[k]? = some n → k < pars.length → (place ((names.map (get kwargs)).map Option.isNone) (names.map (get kwargs)) pars)[i]? = pars[k]?)
  | [], _, _, _, i, n, h => by simp at h
  | m :: names, pars, hnd, hall, i, n, h => by
    rw [List.nodup_cons] at hnd
    have hm := hall m (by simp)
    have hall' : ∀ n ∈ names, ((get kwargs n).isNone = true ↔ n ∉ kwargs.map Prod.fst) := fun n hn => hall n (List.mem_cons_of_mem _ hn)
    rw [List.map_cons, List.map_cons, List.filter_cons]
    by_cases hb : m ∈ kwargs.map Prod.fst
    · have hf : (get kwargs m).isNone = false := by
        rw [Bool.eq_false_iff]; intro h; exact (hm.1 h) hb
      rw [hf, place, if_neg (by simpa using hb)]
      cases i with
      | zero =>
        simp only [List.getElem?_cons_zero, Option.some.injEq] at h
        subst h
        refine ⟨fun v hv => by rw [List.getElem?_cons_zero, get_of_mem hk hv], ?_⟩
        intro k hkk
        have := List.mem_of_getElem? hkk
        rw [List.mem_filter] at this
        exact absurd this.1 hnd.1
      | succ i =>
        rw [List.getElem?_cons_succ] at h
        simp only [List.getElem?_cons_succ]
        exact place_get kwargs hk names pars hnd.2 hall' i n h
    · rw [hm.2 hb, if_pos (by simpa using hb)]
      cases pars with
      | nil =>
        refine ⟨?_, fun k _ hkl => by simp at hkl⟩
        intro v hv
        have : (place (true :: (names.map (get kwargs)).map Option.isNone) (get kwargs m :: names.map (get kwargs)) []) = (m :: names).map (get kwargs) := by simp [place]
        rw [this, List.getElem?_map, h, Option.map_some, get_of_mem hk hv]
      | cons p pars =>
        rw [place]
        cases i with
        | zero =>
          simp only [List.getElem?_cons_zero, Option.some.injEq] at h
          subst h
          refine ⟨fun v hv => absurd (List.mem_map.2 ⟨_, hv, rfl⟩) hb, ?_⟩
          intro k hkk _
          cases k with
          | zero => simp
          | succ k =>
            rw [List.getElem?_cons_succ] at hkk
            have := List.mem_of_getElem? hkk
            rw [List.mem_filter] at this
            exact absurd this.1 hnd.1
        | succ i =>
          rw [List.getElem?_cons_succ] at h
          simp only [List.getElem?_cons_succ]
          obtain ⟨e1, e2⟩ := place_get kwargs hk names pars hnd.2 hall' i n h
          refine ⟨e1, ?_⟩
          intro k hkk hkl
          cases k with
          | zero =>
            rw [List.getElem?_cons_zero, Option.some.injEq] at hkk
            subst hkk
            exact absurd (List.mem_of_getElem? h) hnd.1
          | succ k =>
            rw [List.getElem?_cons_succ] at hkk ⊢
            exact e2 k hkk (by simpa using hkl)

theorem made {X R : Type} {fn : Fn X R} {kwargs : List (String × Option ℚ)} (hn : (params fn).Nodup) (hk : (kwargs.map Prod.fst).Nodup) {f : Fixed X R} (h : fixedParameters fn kwargs = .ok f) :
    f = ⟨fn, fn.names.tail.map (get kwargs), (fn.names.tail.map (get kwargs)).map Option.isNone⟩ ∧ (∀ e ∈ kwargs, e.1 ∈ params fn ∧ e.2 ≠ none) ∧
      (∀ n : String, ((get kwargs n).isNone = true ↔ n ∉ kwargs.map Prod.fst)) ∧ f.free.count true = (freeNames fn kwargs).length := by
  have hacc : kwargs ≠ [] ∧ (∀ e ∈ kwargs, e.1 ∈ params fn ∧ e.2 ≠ none) ∧ freeNames fn kwargs ≠ [] := by
    by_contra hc
    rw [(fixed_accepts fn kwargs hn hk).2 hc] at h
    cases h
  have hf : f = ⟨fn, fn.names.tail.map (get kwargs), (fn.names.tail.map (get kwargs)).map Option.isNone⟩ := by
    rw [fixedParameters] at h
    split_ifs at h
    exact (Except.ok.inj h).symm
  have hall : ∀ n : String, ((get kwargs n).isNone = true ↔ n ∉ kwargs.map Prod.fst) := by
    intro n
    constructor
    · intro h hm
      obtain ⟨e, he, rfl⟩ := List.mem_map.1 hm
      rw [get_of_mem hk (show (e.1, e.2) ∈ kwargs from he)] at h
      exact (hacc.2.1 e he).2 (Option.isNone_iff_eq_none.1 h)
    · intro h; rw [get_of_not_mem h]; rfl
  refine ⟨hf, hacc.2.1, hall, ?_⟩
  rw [hf, freeNames, params, List.count_eq_countP, List.countP_map, List.countP_map, List.countP_eq_length_filter]
  congr 1
  apply List.filter_congr
  intro n _
  rw [Bool.eq_iff_iff, decide_eq_true_iff, ← hall n]
  simp

/-- **C80** With one value for each free parameter, the function is called with the fixed parameters in their values and the k-th free parameter in the k-th value. -/
theorem fixed_call {X R : Type} (fn : Fn X R) (kwargs : List (String × Option ℚ)) (hn : (params fn).Nodup) (hk : (kwargs.map Prod.fst).Nodup) (f : Fixed X R) (h : fixedParameters fn kwargs = .ok f)
    (x : X) (pars : List (Option ℚ)) (hp : pars.length = (freeNames fn kwargs).length) :
    ∃ args, (f.call x pars).1 = fn.eval x args ∧ args.length = (params fn).length ∧ ∀ (i : Nat) (n : String), (params fn)[i]? = some n →
      (∀ v, (n, v) ∈ kwargs → args[i]? = some v) ∧ ∀ k : Nat, (freeNames fn kwargs)[k]? = some n → args[i]? = pars[k]? := by
  obtain ⟨hf, _, hall, hc⟩ := made hn hk h
  have ha : assign f.free f.allArgs pars = .ok (place f.free f.allArgs pars) := by rw [assign, if_pos (by rw [hc, hp])]
  refine ⟨place f.free f.allArgs pars, ?_, ?_, ?_⟩
  · rw [Fixed.call, ha, hf]
  · rw [place_length, hf, params, List.length_map]
  · intro i n hi
    obtain ⟨e1, e2⟩ := place_get kwargs hk (params fn) pars hn (fun n _ => hall n) i n hi
    rw [hf]
    refine ⟨e1, ?_⟩
    intro k hkk
    exact e2 k hkk (by rw [hp]; exact (List.getElem?_eq_some_iff.1 hkk).1)

/-- **C80** With another number of values: one is used for all the free parameters (there is no error), any other number raises `ValueError`. -/
theorem fixed_call_wrong {X R : Type} (fn : Fn X R) (kwargs : List (String × Option ℚ)) (hn : (params fn).Nodup) (hk : (kwargs.map Prod.fst).Nodup) (f : Fixed X R) (h : fixedParameters fn kwargs = .ok f)
    (x : X) (pars : List (Option ℚ)) (hp : pars.length ≠ (freeNames fn kwargs).length) :
    (∀ p, pars = [p] → (f.call x pars).1 = (f.call x (List.replicate (freeNames fn kwargs).length p)).1) ∧
    (pars.length ≠ 1 → (f.call x pars).1 = .error .valueError) := by
  obtain ⟨_, _, _, hc⟩ := made hn hk h
  constructor
  · rintro p rfl
    rw [Fixed.call, Fixed.call, assign, assign, hc, if_neg hp, if_pos (by rfl), if_pos (by simp)]
    rfl
  · intro h1
    rw [Fixed.call, assign, hc, if_neg hp, if_neg h1]

example : (fixedParameters parabola [("c", some 0)]).toOption.map (fun f => ((f.call 2 [some 1, some 3]).1, (f.call 2 [some 1]).1, (f.call 2 []).1)) = some (.ok 7, .ok 3, .error .valueError) := by decide +kernel

/-- Fixing first some parameters and then others. -/
theorem place_twice (kw1 kw2 : List (String × Option ℚ)) :
    ∀ (names : List String) (pars : List (Option ℚ)), (∀ n ∈ names, get (kw1 ++ kw2) n = if (get kw1 n).isNone then get kw2 n else get kw1 n) →
      pars.length = ((names.map (get (kw1 ++ kw2))).map Option.isNone).count true →
      place ((names.map (get kw1)).map Option.isNone) (names.map (get kw1))
        (place (((masked ((names.map (get kw1)).map Option.isNone) names).map (get kw2)).map Option.isNone) ((masked ((names.map (get kw1)).map Option.isNone) names).map (get kw2)) pars) =
      place ((names.map (get (kw1 ++ kw2))).map Option.isNone) (names.map (get (kw1 ++ kw2))) pars
  | [], pars, _, _ => by simp [place]
  | n :: names, pars, h, hl => by
    have hn := h n (by simp)
    have ih := fun ps => place_twice kw1 kw2 names ps fun m hm => h m (List.mem_cons_of_mem _ hm)
    simp only [List.map_cons] at hl ⊢
    rw [hn] at hl ⊢
    cases h1 : (get kw1 n).isNone with
    | false =>
      rw [h1, if_neg (by simp), h1] at hl
      rw [if_neg (by simp), h1]
      simp only [place, masked]
      rw [ih _ (by simpa using hl)]
    | true =>
      rw [h1, if_pos rfl] at hl
      rw [if_pos rfl, masked]
      simp only [List.map_cons]
      cases h2 : (get kw2 n).isNone with
      | false =>
        rw [h2] at hl
        simp only [place]
        rw [ih _ (by simpa using hl)]
      | true =>
        rw [h2] at hl
        cases pars with
        | nil => simp at hl
        | cons p pars =>
          simp only [place]
          rw [ih _ (by simpa using hl)]

theorem place_free_length (kw1 kw2 : List (String × Option ℚ)) : ∀ (names : List String), (∀ n ∈ names, get (kw1 ++ kw2) n = if (get kw1 n).isNone then get kw2 n else get kw1 n) →
      ((names.map (get (kw1 ++ kw2))).map Option.isNone).count true = (((masked ((names.map (get kw1)).map Option.isNone) names).map (get kw2)).map Option.isNone).count true ∧
      masked ((names.map (get (kw1 ++ kw2))).map Option.isNone) names =
        masked (((masked ((names.map (get kw1)).map Option.isNone) names).map (get kw2)).map Option.isNone) (masked ((names.map (get kw1)).map Option.isNone) names) ∧
      (masked ((names.map (get kw1)).map Option.isNone) names).length = ((names.map (get kw1)).map Option.isNone).count true
  | [], _ => by simp [masked]
  | n :: names, h => by
    have hn := h n (by simp)
    obtain ⟨i1, i2, i3⟩ := place_free_length kw1 kw2 names fun m hm => h m (List.mem_cons_of_mem _ hm)
    simp only [List.map_cons]
    rw [hn]
    cases h1 : (get kw1 n).isNone with
    | false =>
      rw [if_neg (by simp), h1]
      simp only [masked]
      exact ⟨by simpa using i1, i2, by simpa using i3⟩
    | true =>
      rw [if_pos rfl]
      simp only [masked, List.map_cons]
      cases h2 : (get kw2 n).isNone with
      | false =>
        simp only [masked]
        exact ⟨by simpa using i1, i2, by simpa using i3⟩
      | true =>
        simp only [masked]
        exact ⟨by simpa using i1, by rw [i2], by simpa using i3⟩

theorem get_append {kw1 kw2 : List (String × Option ℚ)} {n : String} (h1 : (get kw1 n).isNone = true ↔ n ∉ kw1.map Prod.fst) : get (kw1 ++ kw2) n = if (get kw1 n).isNone then get kw2 n else get kw1 n := by
  by_cases h : n ∈ kw1.map Prod.fst
  · rw [if_neg (fun g => (h1.1 g) h), get, get, List.find?_append]
    cases hf : kw1.find? fun e => e.1 == n with
    | none =>
      rw [List.find?_eq_none] at hf
      obtain ⟨e, he, rfl⟩ := List.mem_map.1 h
      exact absurd (by simp) (hf e he)
    | some e => rfl
  · rw [if_pos (h1.2 h), get, get, List.find?_append, List.find?_eq_none.2]
    · rfl
    · intro e he hb
      exact h (List.mem_map.2 ⟨e, he, by simpa using hb⟩)

theorem masked_eq_filter (kwargs : List (String × Option ℚ)) (hall : ∀ n : String, ((get kwargs n).isNone = true ↔ n ∉ kwargs.map Prod.fst)) : ∀ l : List String,
    masked ((l.map (get kwargs)).map Option.isNone) l = l.filter fun n => decide (n ∉ kwargs.map Prod.fst)
  | [] => rfl
  | n :: l => by
    rw [List.map_cons, List.map_cons, List.filter_cons]
    by_cases hb : n ∈ kwargs.map Prod.fst
    · have : (get kwargs n).isNone = false := by
        rw [Bool.eq_false_iff]; intro h; exact ((hall n).1 h) hb
      rw [this, masked, if_neg (by simpa using hb)]
      exact masked_eq_filter kwargs hall l
    · rw [(hall n).2 hb, masked, if_pos (by simpa using hb), masked_eq_filter kwargs hall l]

/-- **C80** Fixing more parameters of a function with fixed parameters is the same as fixing all of them at once. -/
theorem fixed_twice {X R : Type} (fn : Fn X R) (kw1 kw2 : List (String × Option ℚ)) (hn : (params fn).Nodup) (hk1 : (kw1.map Prod.fst).Nodup) (hk2 : (kw2.map Prod.fst).Nodup)
    (f1 f2 : Fixed X R) (h1 : fixedParameters fn kw1 = .ok f1) (h2 : fixedParameters f1.toFn kw2 = .ok f2) :
    ∃ f, fixedParameters fn (kw1 ++ kw2) = .ok f ∧ f.names = f2.names ∧ ∀ x pars, (f.call x pars).1 = (f2.call x pars).1 := by
  obtain ⟨e1, a1, all1, c1⟩ := made hn hk1 h1
  have hne : fn.names ≠ [] := by
    intro h0
    have : params fn = [] := by rw [params, h0]; rfl
    have h := (fixed_accepts fn kw1 hn hk1).2 (by rw [freeNames, this]; simp)
    rw [h] at h1
    cases h1
  have hp1 : params f1.toFn = masked ((fn.names.tail.map (get kw1)).map Option.isNone) fn.names.tail := by
    rw [params, Fixed.toFn, Fixed.names, e1]
    cases hh : fn.names with
    | nil => exact absurd hh hne
    | cons a l => simp
  have hp1' : params f1.toFn = freeNames fn kw1 := by rw [hp1, masked_eq_filter kw1 all1]; rfl
  have hn1 : (params f1.toFn).Nodup := by rw [hp1']; exact hn.filter _
  obtain ⟨e2, a2, all2, c2⟩ := made hn1 hk2 h2
  have hk12 : ((kw1 ++ kw2).map Prod.fst).Nodup := by
    rw [List.map_append, List.nodup_append]
    refine ⟨hk1, hk2, ?_⟩
    rintro a ha b hb rfl
    obtain ⟨e, he, rfl⟩ := List.mem_map.1 hb
    have := (a2 e he).1
    rw [hp1', freeNames, List.mem_filter, decide_eq_true_iff] at this
    exact this.2 ha
  have hsub : ∀ n ∈ params f1.toFn, n ∈ params fn := by
    intro n h
    rw [hp1'] at h
    exact List.mem_of_mem_filter h
  have hacc2 : kw2 ≠ [] ∧ freeNames f1.toFn kw2 ≠ [] := by
    by_contra hc
    have := (fixed_accepts f1.toFn kw2 hn1 hk2).2 (fun h => hc ⟨h.1, h.2.2⟩)
    rw [this] at h2
    cases h2
  obtain ⟨f, hf, _⟩ := (fixed_accepts fn (kw1 ++ kw2) hn hk12).1 ⟨by simp [hacc2.1], by
      intro e he
      rcases List.mem_append.1 he with he | he
      · exact a1 e he
      · exact ⟨hsub _ (a2 e he).1, (a2 e he).2⟩, by
      obtain ⟨n, hnm⟩ := List.exists_mem_of_ne_nil _ hacc2.2
      rw [freeNames, List.mem_filter, decide_eq_true_iff, hp1', freeNames, List.mem_filter, decide_eq_true_iff] at hnm
      apply List.ne_nil_of_mem (a := n)
      rw [freeNames, List.mem_filter, decide_eq_true_iff, List.map_append, List.mem_append]
      exact ⟨hnm.1.1, fun h => h.elim hnm.1.2 hnm.2⟩⟩
  obtain ⟨e3, _, _, _⟩ := made hn hk12 hf
  have happ : ∀ n ∈ fn.names.tail, get (kw1 ++ kw2) n = if (get kw1 n).isNone then get kw2 n else get kw1 n := fun n _ => get_append (all1 n)
  obtain ⟨q1, q2, q3⟩ := place_free_length kw1 kw2 fn.names.tail happ
  refine ⟨f, hf, ?_, ?_⟩
  · rw [e3, e2, Fixed.names, Fixed.names]
    simp only
    rw [show f1.toFn.names.tail = params f1.toFn from rfl, hp1, ← q2]
    congr 1
    rw [Fixed.toFn, Fixed.names, e1]
    cases hh : fn.names with
    | nil => exact absurd hh hne
    | cons a l => simp
  · have key : ∀ x pars, pars.length = f.free.count true → (f.call x pars).1 = (f2.call x pars).1 := by
      intro x pars hl
      have hl' : pars.length = f2.free.count true := by
        rw [hl, e3, e2]
        simp only
        rw [show f1.toFn.names.tail = params f1.toFn from rfl, hp1, q1]
      rw [Fixed.call, Fixed.call, assign, assign, if_pos hl, if_pos hl']
      simp only
      have hfn2 : f2.fn = f1.toFn := by rw [e2]
      rw [hfn2, Fixed.toFn]
      simp only
      rw [Fixed.call, assign, if_pos]
      · simp only
        rw [e3] at hl
        rw [e3, e2]
        simp only
        rw [show f1.toFn.names.tail = params f1.toFn from rfl, hp1, e1]
        simp only
        rw [place_twice kw1 kw2 fn.names.tail pars happ hl]
      · rw [place_length, e2]
        simp only
        rw [List.length_map, show f1.toFn.names.tail = params f1.toFn from rfl, hp1, q3, e1]
    have hcc : f.free.count true = f2.free.count true := by
      rw [e3, e2]
      simp only
      rw [show f1.toFn.names.tail = params f1.toFn from rfl, hp1, q1]
    intro x pars
    by_cases hl : pars.length = f.free.count true
    · exact key x pars hl
    · by_cases h1 : pars.length = 1
      · have hr : ∀ g : Fixed X R, pars.length ≠ g.free.count true → (g.call x pars).1 = (g.call x (List.replicate (g.free.count true) (pars.headD none))).1 := by
          intro g hg
          rw [Fixed.call, Fixed.call, assign, assign, if_neg hg, if_pos h1, if_pos (by simp)]
        rw [hr f hl, hr f2 (by rw [← hcc]; exact hl), ← hcc]
        exact key x _ (by simp)
      · rw [Fixed.call, Fixed.call, assign, assign, if_neg hl, if_neg h1, if_neg (by rw [← hcc]; exact hl), if_neg h1]

example : ((fixedParameters parabola [("b", some 3)]).bind fun f => fixedParameters f.toFn [("a", some 1)]).toOption.map (fun f => (f.names, (f.call 2 [some 5]).1)) = some (["x", "c"], .ok 27) ∧
    (fixedParameters parabola [("b", some 3), ("a", some 1)]).toOption.map (fun f => (f.names, (f.call 2 [some 5]).1)) = some (["x", "c"], .ok 27) := by decide +kernel

/-! ### Fits -/

theorem selectRange_eq (r : Option (ℚ × ℚ)) (data : List Datum) : selectRange r data = data.filter fun d => decide (InFit r d) := by
  cases r with
  | none =>
    rw [selectRange, List.filter_eq_self.2]
    intro d _
    simp [InFit]
  | some r =>
    rcases r with ⟨lo, hi⟩
    rw [selectRange]
    apply List.filter_congr
    intro d _
    simp [InFit]

/-- **C81** The fit in a range is that of the points in the range (closed on the left), whatever the others. -/
theorem fit_range (solve : Solver) (f : List ℚ → ℚ → ℚ) (data : List Datum) (hasSigma : Bool) (range : Option (ℚ × ℚ)) :
    fit solve f data hasSigma range = fit solve f (data.filter fun d => decide (InFit range d)) hasSigma none := by
  rw [fit, fit, ← selectRange_eq range data]
  rfl

/-- **C81** The fit fails with `ValueError`, and the minimization is not called, if and only if uncertainties are given and one in the range is not positive. -/
theorem fit_sigma (solve : Solver) (f : List ℚ → ℚ → ℚ) (data : List Datum) (hasSigma : Bool) (range : Option (ℚ × ℚ)) (hs : ∀ d a e, solve d a = .error e → e ≠ .valueError) :
    (fit solve f data hasSigma range = .error .valueError ↔ hasSigma = true ∧ ∃ d ∈ data, InFit range d ∧ d.sigma ≤ 0) ∧
    ((hasSigma = true ∧ ∃ d ∈ data, InFit range d ∧ d.sigma ≤ 0) → ∀ solve', fit solve' f data hasSigma range = .error .valueError) := by
  have hany : ((if hasSigma then selectRange range data else (selectRange range data).map fun d => { d with sigma := 1 }).any fun d => decide (d.sigma ≤ 0)) = true ↔
      (hasSigma = true ∧ ∃ d ∈ data, InFit range d ∧ d.sigma ≤ 0) := by
    cases hasSigma with
    | true =>
      rw [if_pos rfl, List.any_eq_true, selectRange_eq]
      constructor
      · rintro ⟨d, hd, h⟩
        rw [List.mem_filter, decide_eq_true_iff] at hd
        exact ⟨rfl, d, hd.1, hd.2, of_decide_eq_true h⟩
      · rintro ⟨_, d, h1, h2, h3⟩
        exact ⟨d, List.mem_filter.2 ⟨h1, decide_eq_true h2⟩, decide_eq_true h3⟩
    | false =>
      simp
  constructor
  · rw [← hany, fit]
    constructor
    · intro h
      by_contra hc
      rw [if_neg hc] at h
      split at h
      · next e he => exact hs _ _ _ he (Except.error.inj h)
      · cases h
    · intro h
      rw [if_pos h]
  · intro h solve'
    rw [fit, if_pos (hany.2 h)]

/-- **C81** The result: the values and the covariance are those of the minimization, called with the points in the range, the errors are the roots of the diagonal, and the reduced chi-squared is the sum of the squares of the distances over the
uncertainties (1 if they are not given) divided by the number of points in the range minus that of parameters. -/
theorem fit_result (solve : Solver) (f : List ℚ → ℚ → ℚ) (data : List Datum) (hasSigma : Bool) (range : Option (ℚ × ℚ)) (res : Result) (h : fit solve f data hasSigma range = .ok res) :
    let used := data.filter fun d => decide (InFit range d)
    let sigma := fun d : Datum => if hasSigma then d.sigma else 1
    solve (used.map fun d => ⟨d.x, d.y, sigma d⟩) hasSigma = .ok (res.values, res.cov) ∧
    (∀ i : Nat, res.errors2[i]? = res.cov[i]?.map fun row => row.getD i 0) ∧
    res.ndof = (used.length : Int) - res.values.length ∧
    (res.ndof = 0 → res.chi2 = none) ∧
    (res.ndof ≠ 0 → res.chi2 = some ((used.map fun d => (d.y - f res.values d.x) ^ 2 / sigma d ^ 2).sum / res.ndof)) := by
  intro used sigma
  have hu : (if hasSigma then selectRange range data else (selectRange range data).map fun d => { d with sigma := 1 }) = used.map fun d => ⟨d.x, d.y, sigma d⟩ := by
    rw [selectRange_eq]
    cases hasSigma with
    | true =>
      rw [if_pos rfl]
      show used = _
      have : (fun d : Datum => (⟨d.x, d.y, sigma d⟩ : Datum)) = id := by funext d; simp [sigma]
      rw [this, List.map_id]
    | false => rfl
  rw [fit, hu] at h
  split_ifs at h
  split at h
  · cases h
  · next vals cov he =>
    have hr := (Except.ok.inj h).symm
    subst hr
    refine ⟨he, ?_, ?_, ?_, ?_⟩
    · intro i
      simp only [diag]
      rw [List.getElem?_map, List.getElem?_zipIdx]
      cases cov[i]? <;> simp
    · simp only [selectRange_eq]; rfl
    · intro h0
      simp only at h0 ⊢
      rw [chi2, if_pos h0]
    · intro h0
      simp only at h0 ⊢
      rw [chi2, if_neg h0, List.map_map]
      simp only [div_pow]
      rfl

theorem sum_zero_iff : ∀ l : List ℚ, (∀ q ∈ l, 0 ≤ q) → (l.sum = 0 ↔ ∀ q ∈ l, q = 0)
  | [], _ => by simp
  | a :: l, h => by
    have ih := sum_zero_iff l fun q hq => h q (List.mem_cons_of_mem _ hq)
    have h1 := h a (by simp)
    have h2 := List.sum_nonneg fun q (hq : q ∈ l) => h q (List.mem_cons_of_mem _ hq)
    rw [List.sum_cons, List.forall_mem_cons, ← ih]
    constructor
    · intro h; constructor <;> linarith
    · rintro ⟨e1, e2⟩; rw [e1, e2]; norm_num

/-- **C81** With more points than parameters, chi-squared is not negative, and it is 0 exactly if the function passes by all the points. -/
theorem fit_chi2 (solve : Solver) (f : List ℚ → ℚ → ℚ) (data : List Datum) (hasSigma : Bool) (range : Option (ℚ × ℚ)) (res : Result) (h : fit solve f data hasSigma range = .ok res) (hd : 0 < res.ndof) :
    ∃ c, res.chi2 = some c ∧ 0 ≤ c ∧ (c = 0 ↔ ∀ d ∈ data, InFit range d → d.y = f res.values d.x) := by
  obtain ⟨_, _, _, _, hc⟩ := fit_result solve f data hasSigma range res h
  have hpos : ∀ d ∈ data, InFit range d → (if hasSigma then d.sigma else 1) ≠ 0 := by
    intro d hdm hin h0
    cases hasSigma with
    | false => simp at h0
    | true =>
      simp only [if_true] at h0
      rw [fit, if_pos] at h
      · cases h
      · rw [if_pos rfl, List.any_eq_true, selectRange_eq]
        exact ⟨d, List.mem_filter.2 ⟨hdm, decide_eq_true hin⟩, decide_eq_true (by rw [h0])⟩
  have hnn : ∀ q ∈ (data.filter fun d => decide (InFit range d)).map fun d : Datum => (d.y - f res.values d.x) ^ 2 / (if hasSigma then d.sigma else 1) ^ 2, 0 ≤ q := by
    intro q hq
    obtain ⟨d, _, rfl⟩ := List.mem_map.1 hq
    positivity
  have hnd : (0 : ℚ) < res.ndof := by exact_mod_cast hd
  refine ⟨_, hc (by omega), div_nonneg (List.sum_nonneg hnn) (le_of_lt hnd), ?_⟩
  rw [div_eq_zero_iff, or_iff_left (ne_of_gt hnd), sum_zero_iff _ hnn]
  constructor
  · intro h0 d hdm hin
    have := h0 _ (List.mem_map_of_mem (List.mem_filter.2 ⟨hdm, decide_eq_true hin⟩))
    rw [div_eq_zero_iff, or_iff_left (pow_ne_zero 2 (hpos d hdm hin))] at this
    have := pow_eq_zero_iff (two_ne_zero) |>.1 this
    linarith
  · intro hall q hq
    obtain ⟨d, hdm, rfl⟩ := List.mem_map.1 hq
    rw [List.mem_filter, decide_eq_true_iff] at hdm
    rw [hall d hdm.1 hdm.2]
    simp

/-- A solver that gives the first point. -/
def first : Solver := fun d _ => match d with
  | [] => .error .typeError
  | d :: _ => .ok ([d.y], [[d.sigma ^ 2]])

example : fit first (fun ps _ => ps.getD 0 0) [⟨-1, 9, -1⟩, ⟨0, 2, 1 / 2⟩, ⟨1, 3, 2⟩, ⟨2, 2, 1⟩, ⟨3, 8, 0⟩] true (some (0, 3)) = .ok ⟨[2], [1 / 4], 2, some (1 / 8), [[1 / 4]]⟩ ∧
    fit first (fun ps _ => ps.getD 0 0) [⟨-1, 9, -1⟩, ⟨0, 2, 1 / 2⟩, ⟨1, 3, 2⟩, ⟨2, 2, 1⟩, ⟨3, 8, 0⟩] true none = .error .valueError ∧
    fit first (fun ps _ => ps.getD 0 0) [⟨-1, 9, -1⟩, ⟨0, 2, 1 / 2⟩, ⟨1, 3, 2⟩, ⟨2, 2, 1⟩, ⟨3, 8, 0⟩] false none = .ok ⟨[9], [1], 4, some (135 / 4), [[1]]⟩ := by decide +kernel

end Verif.FixedPars
