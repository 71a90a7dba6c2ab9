import Verif.Spec.Components
import Verif.Props.DataflowPipe
import Verif.Lemmas.Lists
/-!
# C20, C21, C49: event range, input files, stored configuration, timestamps
-/
namespace Verif.Components
open Verif.Dataflow (Net Run push received)

/-! ### C20: event range -/

theorem pySlice_one {α : Type} (lo : Nat) (hi : Option Nat) (xs : List α) : Dataflow.pySlice lo hi 1 xs = window lo hi xs := by
  have key : ∀ (n lo : Nat) (hi : Option Nat) (xs : List α),
      ((xs.zipIdx n).filter fun p => decide (lo ≤ p.2) && hi.all (fun b => decide (p.2 < b))).map Prod.fst =
        window (lo - n) (hi.map (· - n)) xs := by
    intro n lo hi xs
    induction xs generalizing n with
    | nil => cases hi <;> simp [window]
    | cons x xs ih =>
      rw [List.zipIdx_cons, List.filter_cons]
      have ih' := ih (n + 1)
      split
      · rename_i h
        simp only [Bool.and_eq_true, decide_eq_true_eq] at h
        rw [List.map_cons, ih']
        cases hi with
        | none => simp [window, show lo - n = 0 by omega, show lo - (n + 1) = 0 by omega]
        | some b =>
          have hb : n < b := by simpa using h.2
          simp only [window, Option.map_some, show lo - n = 0 by omega, show lo - (n + 1) = 0 by omega, List.drop_zero]
          rw [show b - n = (b - (n + 1)) + 1 by omega, List.take_succ_cons]
      · rename_i h
        rw [ih']
        cases hi with
        | none =>
          have : n < lo := by simpa using h
          simp only [window, Option.map_none]
          rw [show lo - n = (lo - (n + 1)) + 1 by omega, List.drop_succ_cons]
        | some b =>
          simp only [window, Option.map_some]
          by_cases hl : n < lo
          · rw [show lo - n = (lo - (n + 1)) + 1 by omega]
            by_cases hb : n < b
            · rw [show b - n = (b - (n + 1)) + 1 by omega, List.take_succ_cons, List.drop_succ_cons]
            · simp [show b - n = 0 by omega, show b - (n + 1) = 0 by omega]
          · have hb : ¬ n < b := by
              intro hb; apply h; simp [hb]; omega
            simp [show b - n = 0 by omega, show b - (n + 1) = 0 by omega]
  have := key 0 lo hi xs
  simp only [Nat.sub_zero, Option.map_id'] at this
  rw [← this]
  simp [Dataflow.pySlice, Nat.mod_one]

theorem mkSlice_none_step {α : Type} (id : Nat) (a b : Option Int) (h1 : ∀ x, a = some x → 0 ≤ x) (h2 : ∀ x, b = some x → 0 ≤ x) :
    Dataflow.mkSlice (α := α) id a b Option.none true = .ok (.slice id (a.getD 0).toNat (b.map Int.toNat) 0 true) := by
  have e1 : a.any (· < 0) = false := by cases a <;> simp_all
  have e2 : b.any (· < 0) = false := by cases b <;> simp_all
  simp [Dataflow.mkSlice, e1, e2]

theorem LowMeans.arg {e : ErElem} {lo : Nat} (h : LowMeans e lo) :
    ∃ a, sliceArg e = .ok a ∧ (∀ x, a = some x → 0 ≤ x) ∧ (a.getD 0).toNat = lo := by
  cases h with
  | int => exact ⟨_, rfl, by rintro _ ⟨⟩; omega, by simp⟩
  | none => exact ⟨_, rfl, by simp, rfl⟩

theorem HighMeans.arg {e : ErElem} {hi : Option Nat} (h : HighMeans e hi) :
    ∃ a, sliceArg e = .ok a ∧ (∀ x, a = some x → 0 ≤ x) ∧ (a.map Int.toNat) = hi := by
  cases h with
  | int => exact ⟨_, rfl, by rintro _ ⟨⟩; omega, by simp⟩
  | none => exact ⟨_, rfl, by simp, rfl⟩

theorem citySlice_one {α : Type} {id : Nat} {e : ErElem} {hi : Option Nat} (h : HighMeans e hi) :
    citySlice (α := α) id [e] = .ok (.slice id 0 hi 0 true) := by
  obtain ⟨a, h1, h2, rfl⟩ := h.arg
  simp [citySlice, h1, mkSlice_none_step id Option.none a (by simp) h2, bind, Except.bind]

theorem citySlice_two {α : Type} {id : Nat} {e e' : ErElem} {lo : Nat} {hi : Option Nat} (hl : LowMeans e lo) (h : HighMeans e' hi) :
    citySlice (α := α) id [e, e'] = .ok (.slice id lo hi 0 true) := by
  obtain ⟨a, h1, h2, rfl⟩ := h.arg
  obtain ⟨b, h3, h4, rfl⟩ := hl.arg
  simp [citySlice, h1, h3, mkSlice_none_step id b a h4 h2, bind, Except.bind]

theorem eventRange_means {spec : ErSpec} {lo : Nat} {hi : Option Nat} (h : Means spec lo hi) {α : Type} (id : Nat) :
    ∃ er, eventRange spec = .ok er ∧ citySlice (α := α) id er = .ok (.slice id lo hi 0 true) := by
  cases h with
  | default => exact ⟨_, rfl, citySlice_two .none (.int 1)⟩
  | stop h => cases h <;> exact ⟨_, rfl, citySlice_one (by first | exact .int _ | exact .none)⟩
  | stop1 h => cases h <;> exact ⟨_, rfl, citySlice_one (by first | exact .int _ | exact .none)⟩
  | all => exact ⟨_, rfl, citySlice_one .none⟩
  | all1 => exact ⟨_, rfl, citySlice_one .none⟩
  | startStop h1 h2 =>
    refine ⟨_, ?_, citySlice_two h1 h2⟩
    cases h1 <;> cases h2 <;> rfl
  | startLast h1 =>
    refine ⟨_, ?_, citySlice_two h1 .none⟩
    cases h1 <;> rfl

/-- **C20** For every accepted event range meaning `[lo, hi)`, every source and every pipeline, the pipeline behaves
exactly as if the source consisted of the events `[lo, hi)` only, and no more than `max(lo+1, hi)` events are taken
from the source (so reading stops after the last one). -/
theorem eventRange_selects {α : Type} {spec : ErSpec} {lo : Nat} {hi : Option Nat} (h : Means spec lo hi) (id : Nat)
    (source : List α) (rest : Net α) :
    ∃ run, cityRun id spec source rest = .ok run ∧
      run.trace = (push (window lo hi source) rest).trace ++ [.closed id] ∧
      run.exc = (push (window lo hi source) rest).exc ∧
      ∀ b, hi = some b → run.consumed ≤ max (lo + 1) b := by
  obtain ⟨er, h1, h2⟩ := eventRange_means h (α := α) id
  refine ⟨_, by rw [cityRun, h1]; simp only [bind, Except.bind]; rw [h2], ?_, ?_, ?_⟩
  · rw [(Dataflow.slice_selects ..).1, Nat.zero_add, pySlice_one]
  · rw [(Dataflow.slice_selects ..).2, Nat.zero_add, pySlice_one]
  · rintro b rfl
    have := Dataflow.slice_closeAll_consumed id lo b 0 rest source
    simpa using this

/-- **C20** Seen by a sink: with a range `[lo, hi)` it receives exactly the events `[lo, hi)`. -/
theorem eventRange_received {α : Type} {spec : ErSpec} {lo : Nat} {hi : Option Nat} (h : Means spec lo hi) (id k : Nat)
    (source : List α) :
    ∃ run, cityRun id spec source (.sink k fun _ => none) = .ok run ∧ received k run.trace = window lo hi source ∧ run.exc = none := by
  obtain ⟨run, h1, h2, h3, _⟩ := eventRange_selects h id source (.sink k fun _ => none)
  have key : ∀ ys : List α, (push ys (.sink k fun _ => none)).trace = ys.map (Dataflow.Ev.recv k) ++ [.closed k] ∧
      (push ys (.sink k fun _ => none)).exc = none := by
    intro ys
    simp only [push, Dataflow.init]
    induction ys with
    | nil => simp [Dataflow.pushFrom, Dataflow.close]
    | cons y ys ih => simp [Dataflow.pushFrom, Dataflow.send, ih]
  refine ⟨run, h1, ?_, by rw [h3, (key _).2]⟩
  rw [h2, (key _).1]
  simp [received, List.filterMap_append, List.filterMap_map, Function.comp_def]

/-- **C20** Every other specification is rejected with `ValueError`, before any event is processed. -/
theorem eventRange_rejects {α : Type} (id : Nat) (spec : ErSpec) (source : List α) (rest : Net α)
    (h : ¬ ∃ lo hi, Means spec lo hi) : cityRun id spec source rest = .error .valueError := by
  have neg : ∀ n : Int, (∀ m : Nat, n ≠ m) → n < 0 := fun n hn => by
    by_contra hc; exact hn n.toNat (by omega)
  have one : ∀ e, (¬ ∃ lo hi, Means (.seq [e]) lo hi) → cityRun id (.seq [e]) source rest = .error .valueError := by
    intro e he
    cases e with
    | int n =>
      have : n < 0 := neg n fun m hm => he ⟨0, some m, by subst hm; exact .stop1 (.int m)⟩
      simp [cityRun, eventRange, eventRange.go, invalidSpec, citySlice, sliceArg, Dataflow.mkSlice, this, bind, Except.bind]
    | none => exact absurd ⟨0, none, .stop1 .none⟩ he
    | all => exact absurd ⟨0, none, .all1⟩ he
    | last => rfl
  cases spec with
  | unset => exact absurd ⟨0, some 1, .default⟩ h
  | single e =>
    have := one e (by
      rintro ⟨lo, hi, h'⟩; apply h
      cases h' with
      | stop1 h' => exact ⟨_, _, .stop h'⟩
      | all1 => exact ⟨_, _, .all⟩)
    simpa [cityRun, eventRange] using this
  | seq es =>
    match es with
    | [] => rfl
    | [e] => exact one e h
    | [a, b] =>
      by_cases hi : invalidSpec [a, b]
      · simp [cityRun, eventRange, eventRange.go, hi, bind, Except.bind]
      · have ha : a ≠ .all ∧ a ≠ .last ∧ b ≠ .all := by
          refine ⟨?_, ?_, ?_⟩ <;> rintro rfl <;> apply hi <;> simp [invalidSpec]
        cases a with
        | int n =>
          by_cases hn : ∃ m : Nat, n = m
          · obtain ⟨m, rfl⟩ := hn
            cases b with
            | int k =>
              have : k < 0 := neg k fun l hl => h ⟨m, some l, by subst hl; exact .startStop (.int m) (.int l)⟩
              have hm : ¬ (m : Int) < 0 := by omega
              simp [hm, cityRun, eventRange, eventRange.go, hi, citySlice, sliceArg, Dataflow.mkSlice, this, bind, Except.bind]
            | none => exact absurd ⟨_, _, .startStop (.int m) .none⟩ h
            | all => exact absurd rfl ha.2.2
            | last => exact absurd ⟨_, _, .startLast (.int m)⟩ h
          · have : n < 0 := neg n fun m hm => hn ⟨m, hm⟩
            cases b <;>
              simp_all [cityRun, eventRange, eventRange.go, citySlice, sliceArg, Dataflow.mkSlice, bind, Except.bind]
        | none =>
          cases b with
          | int k =>
            have : k < 0 := neg k fun l hl => h ⟨0, some l, by subst hl; exact .startStop .none (.int l)⟩
            simp [cityRun, eventRange, eventRange.go, hi, citySlice, sliceArg, Dataflow.mkSlice, this, bind, Except.bind]
          | none => exact absurd ⟨_, _, .startStop .none .none⟩ h
          | all => exact absurd rfl ha.2.2
          | last => exact absurd ⟨_, _, .startLast .none⟩ h
        | all => exact absurd rfl ha.1
        | last => exact absurd rfl ha.2.1
    | a :: b :: c :: es => simp [cityRun, eventRange, eventRange.go, invalidSpec, bind, Except.bind]

/-- C20. The words of the command line: an integer, `all` and `last` stand for themselves, any other (but the names of other symbols) is a `ValueError`. -/
theorem parseErElem_means (asInt : String → Option Int) (s : String) (e : ErElem) :
    (parseErElem asInt s = .ok e ↔ (∃ n, asInt s = some n ∧ e = .int n) ∨ (asInt s = none ∧ s = "all" ∧ e = .all) ∨ (asInt s = none ∧ s = "last" ∧ e = .last)) ∧
    (asInt s = none → s ≠ "all" → s ≠ "last" → parseErElem asInt s = .error .valueError) := by
  unfold parseErElem
  cases h : asInt s with
  | some n => simp [eq_comm]
  | none =>
    by_cases h1 : s = "all"
    · subst h1; simp [eq_comm]
    · by_cases h2 : s = "last"
      · subst h2; simp [eq_comm]
      · simp [h1, h2]

example : (parseErElem (fun s => if s = "12" then some 12 else none) "12").toOption = some (.int 12) ∧ (parseErElem (fun _ => none) "last").toOption = some .last ∧
    (parseErElem (fun _ => none) "first").toOption = none := by decide

/-- A specification has at most one meaning. -/
theorem Means.unique {spec : ErSpec} {lo lo' : Nat} {hi hi' : Option Nat} (h : Means spec lo hi) (h' : Means spec lo' hi') :
    lo = lo' ∧ hi = hi' := by
  have low : ∀ {a l l'}, LowMeans a l → LowMeans a l' → l = l' := by
    intro a l l' h1 h2
    cases h1 <;> cases h2 <;> rfl
  have high : ∀ {a l l'}, HighMeans a l → HighMeans a l' → l = l' := by
    intro a l l' h1 h2
    cases h1 <;> cases h2 <;> rfl
  cases h with
  | default => cases h'; exact ⟨rfl, rfl⟩
  | stop h => cases h' with
    | stop h' => exact ⟨rfl, high h h'⟩
    | all => cases h
  | stop1 h => cases h' with
    | stop1 h' => exact ⟨rfl, high h h'⟩
    | all1 => cases h
  | all => cases h' with
    | stop h' => cases h'
    | all => exact ⟨rfl, rfl⟩
  | all1 => cases h' with
    | stop1 h' => cases h'
    | all1 => exact ⟨rfl, rfl⟩
  | startStop h1 h2 => cases h' with
    | startStop h3 h4 => exact ⟨low h1 h3, high h2 h4⟩
    | startLast => cases h2
  | startLast h1 => cases h' with
    | startStop h3 h4 => cases h4
    | startLast h3 => exact ⟨low h1 h3, rfl⟩

example : Means (.seq [.int 2, .int 5]) 2 (some 5) := .startStop (.int 2) (.int 5)
example : Means (.seq [.int 2, .last]) 2 none := .startLast (.int 2)
example : window 2 (some 5) [10, 11, 12, 13, 14, 15, 16] = [12, 13, 14] := by decide
example : ¬ ∃ lo hi, Means (.seq [.int 2, .all]) lo hi := by
  rintro ⟨lo, hi, h⟩
  cases h with
  | startStop _ h => cases h
example : ¬ ∃ lo hi, Means (.single (.int (-3))) lo hi := by
  rintro ⟨lo, hi, h⟩
  cases h with
  | stop h => generalize hx : ErElem.int (-3) = x at h; cases h <;> simp at hx

/-! ### C21: input files -/

theorem globAll_ok {glob : String → List String} {ps fs : List String} (h : globAll glob ps = .ok fs) :
    fs = ps.flatMap glob ∧ ∀ p ∈ ps, glob p ≠ [] := by
  induction ps generalizing fs with
  | nil => simp [globAll] at h; simp [h]
  | cons p ps ih =>
    simp only [globAll] at h
    split at h
    · cases h
    · rename_i hp
      cases h1 : globAll glob ps with
      | error e => simp [h1] at h
      | ok gs =>
        simp only [h1, Except.ok.injEq] at h
        obtain ⟨rfl, h3⟩ := ih h1
        subst h
        refine ⟨by simp, ?_⟩
        intro q hq
        rcases List.mem_cons.1 hq with rfl | hq
        · intro hc; simp [hc] at hp
        · exact h3 q hq

theorem globAll_error {glob : String → List String} {ps : List String} (h : ∃ p ∈ ps, glob p = []) :
    globAll glob ps = .error (.other "FileNotFoundError") := by
  induction ps with
  | nil => simp at h
  | cons p ps ih =>
    simp only [globAll]
    split
    · rfl
    · rename_i hp
      obtain ⟨q, hq, hq2⟩ := h
      rcases List.mem_cons.1 hq with rfl | hq
      · simp [hq2] at hp
      · rw [ih ⟨q, hq, hq2⟩]

/-- The positions kept by `dropRepeated` are those of first appearances. -/
theorem zipIdx_first {fs : List String} {fi : String × Nat} (h : fi ∈ fs.zipIdx) :
    (!(fs.take fi.2).contains fi.1) = true ↔ fs.idxOf fi.1 = fi.2 := by
  obtain ⟨f, i⟩ := fi
  have hi : fs[i]? = some f := List.mem_zipIdx_iff_getElem?.1 h
  simp only [Bool.not_eq_true', List.contains_eq_mem, decide_eq_false_iff_not]
  have hlt : i < fs.length := (List.getElem?_eq_some_iff.1 hi).1
  have hfi : fs[i] = f := (List.getElem?_eq_some_iff.1 hi).2
  constructor
  · intro hn
    have hle : fs.idxOf f ≤ i := by
      by_contra hc
      have := List.not_of_lt_findIdx (p := (· == f)) (xs := fs) (by simpa [List.idxOf] using (Nat.lt_of_not_le hc))
      simp [hfi] at this
    by_contra hne
    apply hn
    rw [List.mem_take_iff_getElem]
    have hm : f ∈ fs := hfi ▸ List.getElem_mem hlt
    have hl := List.idxOf_lt_length_of_mem hm
    exact ⟨fs.idxOf f, by omega, List.getElem_idxOf hl⟩
  · intro he hm
    rw [List.mem_take_iff_getElem] at hm
    obtain ⟨j, hj, hj2⟩ := hm
    have : fs.idxOf f ≤ j := by
      by_contra hc
      have := List.not_of_lt_findIdx (p := (· == f)) (xs := fs) (by simpa [List.idxOf] using (Nat.lt_of_not_le hc))
      simp [hj2] at this
    omega

theorem dropRepeated_first (fs : List String) : FirstAppearances fs (dropRepeated fs) := by
  have hpw : (fs.zipIdx.filter fun fi => !(fs.take fi.2).contains fi.1).Pairwise (fun a b => a.2 < b.2) := by
    apply List.Pairwise.filter
    have h := List.pairwise_lt_range' (s := 0) (n := fs.length) (step := 1)
    have e : fs.zipIdx.map Prod.snd = List.range' 0 fs.length := by simp
    rw [← e, List.pairwise_map] at h
    exact h
  have hfirst : ∀ fi ∈ fs.zipIdx.filter (fun fi => !(fs.take fi.2).contains fi.1), fs.idxOf fi.1 = fi.2 := by
    intro fi hfi
    have := List.mem_filter.1 hfi
    exact (zipIdx_first this.1).1 this.2
  have horder : (dropRepeated fs).Pairwise fun x y => fs.idxOf x < fs.idxOf y := by
    unfold dropRepeated
    rw [List.pairwise_map]
    apply hpw.imp_of_mem
    intro a b ha hb hab
    rw [hfirst a ha, hfirst b hb]
    exact hab
  refine ⟨?_, ?_, horder⟩
  · apply horder.imp
    rintro a b hab rfl
    omega
  · intro x
    simp only [dropRepeated, List.mem_map, List.mem_filter]
    constructor
    · rintro ⟨⟨f, i⟩, ⟨h1, _⟩, rfl⟩
      exact List.mem_of_getElem? (List.mem_zipIdx_iff_getElem?.1 h1)
    · intro hx
      have hl := List.idxOf_lt_length_of_mem hx
      have hm : (x, fs.idxOf x) ∈ fs.zipIdx := List.mem_zipIdx_iff_getElem?.2 (by simp [hl])
      exact ⟨_, ⟨hm, (zipIdx_first hm).2 rfl⟩, rfl⟩

/-- A list without repetitions is its own list of first appearances. -/
theorem first_of_nodup {fs : List String} (h : fs.Nodup) : FirstAppearances fs fs := by
  refine ⟨h, fun _ => Iff.rfl, ?_⟩
  rw [List.pairwise_iff_getElem]
  intro i j hi hj hij
  rw [h.idxOf_getElem, h.idxOf_getElem]
  exact hij

theorem eraseDups_length {fs : List String} : fs.eraseDups.length = fs.length ↔ fs.Nodup := by
  have hle : ∀ n (l : List String), l.length ≤ n → l.eraseDups.length ≤ l.length ∧ (l.eraseDups.length = l.length → l.Nodup) ∧ (l.Nodup → l.eraseDups = l) := by
    intro n
    induction n with
    | zero => intro l hl; have : l = [] := by simpa using hl
              subst this; simp
    | succ n ih =>
      intro l hl
      cases l with
      | nil => simp
      | cons x xs =>
        have hf : (xs.filter fun b => !b == x).length ≤ xs.length := List.length_filter_le ..
        have hl' : xs.length ≤ n := by simpa using hl
        obtain ⟨h1, h2, h3⟩ := ih (xs.filter fun b => !b == x) (hf.trans hl')
        rw [List.eraseDups_cons]
        refine ⟨by simp only [List.length_cons]; omega, ?_, ?_⟩
        · intro he
          simp only [List.length_cons, Nat.add_right_cancel_iff] at he
          have hfl : (xs.filter fun b => !b == x).length = xs.length := by omega
          have hfe := (List.filter_sublist (p := fun b => !b == x) (l := xs)).eq_of_length hfl
          rw [hfe] at h2
          rw [List.nodup_cons]
          refine ⟨?_, h2 (by rw [hfe] at he; exact he)⟩
          intro hx
          rw [← hfe] at hx
          simp at hx
        · intro hn
          rw [List.nodup_cons] at hn
          have hfe : (xs.filter fun b => !b == x) = xs := by
            rw [List.filter_eq_self]
            intro a ha
            simp only [Bool.not_eq_true', beq_eq_false_iff_ne]
            rintro rfl; exact hn.1 ha
          rw [hfe] at h3 ⊢
          rw [h3 hn.2]
  have := hle fs.length fs le_rfl
  exact ⟨this.2.1, fun h => by rw [this.2.2 h]⟩

/-- **C21** The files processed are those matched by the patterns, each once, in the order of first appearance; a
warning tells whether there were repetitions. -/
theorem cityFiles_spec (glob : String → List String) (patterns : List String) (h : ∀ p ∈ patterns, glob p ≠ []) :
    ∃ files warned, cityFiles glob (.many patterns) = .ok (files, warned) ∧
      FirstAppearances (patterns.flatMap glob) files ∧ (warned = true ↔ ¬ (patterns.flatMap glob).Nodup) := by
  have hg : ∃ fs, globAll glob patterns = .ok fs := by
    clear * - h
    induction patterns with
    | nil => exact ⟨[], rfl⟩
    | cons p ps ih =>
      obtain ⟨fs, hfs⟩ := ih fun q hq => h q (List.mem_cons_of_mem _ hq)
      have := h p List.mem_cons_self
      exact ⟨glob p ++ fs, by simp [globAll, hfs, this]⟩
  obtain ⟨fs, hfs⟩ := hg
  have he := (globAll_ok hfs).1
  simp only [cityFiles, hfs]
  subst he
  split
  · rename_i hd
    exact ⟨_, _, rfl, dropRepeated_first _, by simpa using fun hc => hd (eraseDups_length.2 hc)⟩
  · rename_i hd
    have hn := eraseDups_length.1 (not_not.1 hd)
    exact ⟨_, _, rfl, first_of_nodup hn, by simpa using hn⟩

/-- **C21** A pattern without matches is an error, wherever it is. -/
theorem cityFiles_missing (glob : String → List String) (patterns : List String) (h : ∃ p ∈ patterns, glob p = []) :
    cityFiles glob (.many patterns) = .error (.other "FileNotFoundError") := by
  simp [cityFiles, globAll_error h]

/-- **C21** A single pattern is a list of one pattern. -/
theorem cityFiles_one (glob : String → List String) (p : String) : cityFiles glob (.one p) = cityFiles glob (.many [p]) := rfl

/-- Two lists of first appearances of the same list are equal: the specification leaves no freedom. -/
theorem FirstAppearances.unique {xs ys zs : List String} (h : FirstAppearances xs ys) (h' : FirstAppearances xs zs) : ys = zs := by
  have hp : ys.Perm zs := (List.perm_ext_iff_of_nodup h.nodup h'.nodup).2 fun x => (h.same x).trans (h'.same x).symm
  apply hp.eq_of_pairwise (le := fun x y => xs.idxOf x < xs.idxOf y) _ h.order h'.order
  intro a b _ _ h1 h2
  omega

example : (cityFiles (fun p => if p = "a*" then ["a1", "a2"] else [p]) (.many ["a2", "a*", "b", "b"])).toOption =
    some (["a2", "a1", "b"], true) := by decide
example : FirstAppearances ["a2", "a1", "a2", "b", "b"] ["a2", "a1", "b"] := by
  have : dropRepeated ["a2", "a1", "a2", "b", "b"] = ["a2", "a1", "b"] := by decide
  exact this ▸ dropRepeated_first _

/-! ### C21: flattening of the configuration -/

theorem dictSet_mem {d : List (Key × String)} {k : Key} {v : String} (hk : k ∉ d.map Prod.fst) :
    dictSet d k v = d ++ [(k, v)] := by
  induction d with
  | nil => rfl
  | cons kv d ih =>
    obtain ⟨k', v'⟩ := kv
    simp only [List.map_cons, List.mem_cons, not_or] at hk
    simp [dictSet, Ne.symm hk.1, ih hk.2]

theorem dictUpdate_disjoint {d e : List (Key × String)} (he : (e.map Prod.fst).Nodup)
    (hd : ∀ k ∈ e.map Prod.fst, k ∉ d.map Prod.fst) : dictUpdate d e = d ++ e := by
  induction e generalizing d with
  | nil => simp [dictUpdate]
  | cons kv e ih =>
    obtain ⟨k, v⟩ := kv
    simp only [List.map_cons, List.nodup_cons] at he
    have h0 := dictSet_mem (v := v) (hd k (by simp))
    simp only [dictUpdate, List.foldl_cons] at ih ⊢
    rw [h0, ih he.2]
    · simp
    · intro k' hk'
      simp only [List.map_append, List.map_cons, List.map_nil, List.mem_append, List.mem_singleton, not_or]
      exact ⟨hd k' (by simp [hk']), by rintro rfl; exact he.1 hk'⟩

/-- Dotted path below a parent. -/
def below (parent : Key) (p : List Key) : Key := if parent = [] then dotted p else parent ++ '.' :: dotted p

/-- All leaves, in order, with their dotted paths. -/
def leaves (parent : Key) : Cfgs → List (Key × String)
  | .nil => []
  | .cons k (.leaf s) rest => (newKey parent k, s) :: leaves parent rest
  | .cons k (.dict d) rest => leaves (newKey parent k) d ++ leaves parent rest

/-- Two strings split at the first dot agree piece by piece. -/
theorem dot_split {a b x y : Key} (ha : '.' ∉ a) (hb : '.' ∉ b) (h : a ++ '.' :: x = b ++ '.' :: y) : a = b ∧ x = y := by
  induction a generalizing b with
  | nil =>
    cases b with
    | nil => simpa using h
    | cons c b => simp at h; simp [← h.1] at hb
  | cons c a ih =>
    cases b with
    | nil => simp at h; simp [h.1] at ha
    | cons c' b =>
      simp only [List.cons_append, List.cons.injEq] at h
      simp only [List.mem_cons, not_or] at ha hb
      obtain ⟨h1, h2⟩ := ih ha.2 hb.2 h.2
      exact ⟨by rw [h.1, h1], h2⟩

theorem dot_split' {a b x : Key} (ha : '.' ∉ a) (h : a = b ++ '.' :: x) : False := by
  subst h; simp at ha

/-- The key `s` starts with `k`, followed by a dot or by nothing. -/
def Starts (k s : Key) : Prop := s = k ∨ ∃ x, s = k ++ '.' :: x

/-- The key `s` is below the parent, its next piece being `k`. -/
def Under (parent k s : Key) : Prop := Starts (newKey parent k) s

theorem newKey_ne {parent k : Key} (hk : k ≠ []) : newKey parent k ≠ [] := by
  unfold newKey; split <;> simp [hk]

theorem starts_newKey {parent k s : Key} (hp : parent ≠ []) (h : Starts (newKey parent k) s) : Starts parent s := by
  unfold newKey at h
  rw [if_neg hp] at h
  rcases h with rfl | ⟨x, rfl⟩
  · exact Or.inr ⟨k, rfl⟩
  · exact Or.inr ⟨k ++ '.' :: x, by simp⟩

theorem under_unique {parent k k' s : Key} (hk : '.' ∉ k) (hk' : '.' ∉ k') (h : Under parent k s) (h' : Under parent k' s) : k = k' := by
  unfold Under newKey at h h'
  by_cases hp : parent = []
  · simp only [hp, if_true] at h h'
    rcases h with rfl | ⟨x, rfl⟩ <;> rcases h' with h' | ⟨y, h'⟩
    · exact h'
    · exact absurd h' (fun h => dot_split' hk h)
    · exact absurd h'.symm (fun h => dot_split' hk' h)
    · exact (dot_split hk hk' h').1
  · simp only [hp, if_false] at h h'
    have canc : ∀ {u v : Key}, parent ++ '.' :: u = parent ++ '.' :: v → u = v := fun h => by simpa using h
    rcases h with rfl | ⟨x, rfl⟩ <;> rcases h' with h' | ⟨y, h'⟩
    · exact canc h'
    · rw [List.append_assoc, List.cons_append] at h'
      exact absurd (canc h') (fun h => dot_split' hk h)
    · rw [List.append_assoc, List.cons_append] at h'
      exact absurd (canc h').symm (fun h => dot_split' hk' h)
    · rw [List.append_assoc, List.cons_append, List.append_assoc, List.cons_append] at h'
      exact (dot_split hk hk' (canc h')).1

/-- Each key of `leaves` is below the parent and starts with one of the keys of the dictionary. -/
theorem leaves_under : (d : Cfgs) → (parent : Key) → d.Clean → ∀ s ∈ (leaves parent d).map Prod.fst, ∃ k ∈ d.keys, Under parent k s
  | .nil, _, _, s, hs => by simp [leaves] at hs
  | .cons k (.leaf v) rest, parent, hc, s, hs => by
    simp only [leaves, List.map_cons, List.mem_cons] at hs
    rcases hs with rfl | hs
    · exact ⟨k, by simp [Cfgs.keys], Or.inl rfl⟩
    · obtain ⟨k', h1, h2⟩ := leaves_under rest parent hc.2.2.2.2 s hs
      exact ⟨k', by simp [Cfgs.keys, h1], h2⟩
  | .cons k (.dict d) rest, parent, hc, s, hs => by
    simp only [leaves, List.map_append, List.mem_append] at hs
    rcases hs with hs | hs
    · obtain ⟨k', h1, h2⟩ := leaves_under d (newKey parent k) hc.2.2.2.1 s hs
      exact ⟨k, by simp [Cfgs.keys], starts_newKey (newKey_ne hc.1) h2⟩
    · obtain ⟨k', h1, h2⟩ := leaves_under rest parent hc.2.2.2.2 s hs
      exact ⟨k', by simp [Cfgs.keys, h1], h2⟩

theorem clean_nodot : (d : Cfgs) → d.Clean → ∀ k ∈ d.keys, '.' ∉ k
  | .nil, _, k, hk => by simp [Cfgs.keys] at hk
  | .cons k' v rest, hc, k, hk => by
    simp only [Cfgs.keys, List.mem_cons] at hk
    rcases hk with rfl | hk
    · exact hc.2.1
    · exact clean_nodot rest hc.2.2.2.2 k hk

/-- The keys of one item and of the rest of the dictionary do not meet. -/
theorem apart {parent k : Key} {rest : Cfgs} (hk : '.' ∉ k) (hr : k ∉ rest.keys) (hc : rest.Clean) {s : Key}
    (hs : Under parent k s) : s ∉ (leaves parent rest).map Prod.fst := by
  intro hm
  obtain ⟨k', h1, h2⟩ := leaves_under rest parent hc s hm
  exact hr (under_unique hk (clean_nodot rest hc k' h1) hs h2 ▸ h1)

theorem leaves_nodup : (d : Cfgs) → (parent : Key) → d.Clean → ((leaves parent d).map Prod.fst).Nodup
  | .nil, _, _ => by simp [leaves]
  | .cons k (.leaf v) rest, parent, hc => by
    simp only [leaves, List.map_cons, List.nodup_cons]
    exact ⟨apart hc.2.1 hc.2.2.1 hc.2.2.2.2 (Or.inl rfl), leaves_nodup rest parent hc.2.2.2.2⟩
  | .cons k (.dict d) rest, parent, hc => by
    simp only [leaves, List.map_append, List.nodup_append]
    refine ⟨leaves_nodup d _ hc.2.2.2.1, leaves_nodup rest parent hc.2.2.2.2, ?_⟩
    rintro s hs _ hs' rfl
    obtain ⟨k', _, h2⟩ := leaves_under d (newKey parent k) hc.2.2.2.1 s hs
    exact apart hc.2.1 hc.2.2.1 hc.2.2.2.2 (starts_newKey (newKey_ne hc.1) h2) hs'

theorem dictToStringFrom_leaves : (d : Cfgs) → (parent : Key) → (acc : List (Key × String)) → d.Clean →
    (∀ s ∈ (leaves parent d).map Prod.fst, s ∉ acc.map Prod.fst) → dictToStringFrom parent acc d = acc ++ leaves parent d
  | .nil, _, _, _, _ => by simp [dictToStringFrom, leaves]
  | .cons k (.leaf v) rest, parent, acc, hc, h => by
    simp only [leaves, List.map_cons, List.mem_cons] at h
    simp only [dictToStringFrom, leaves]
    rw [dictSet_mem (h _ (Or.inl rfl)), dictToStringFrom_leaves rest parent _ hc.2.2.2.2]
    · simp
    · intro s hs
      simp only [List.map_append, List.map_cons, List.map_nil, List.mem_append, List.mem_singleton, not_or]
      refine ⟨h s (Or.inr hs), ?_⟩
      rintro rfl
      exact apart hc.2.1 hc.2.2.1 hc.2.2.2.2 (Or.inl rfl) hs
  | .cons k (.dict d) rest, parent, acc, hc, h => by
    simp only [leaves, List.map_append, List.mem_append] at h
    simp only [dictToStringFrom, leaves]
    rw [dictToStringFrom_leaves d (newKey parent k) [] hc.2.2.2.1 (by simp), List.nil_append,
      dictUpdate_disjoint (leaves_nodup d _ hc.2.2.2.1) fun s hs => h s (Or.inl hs),
      dictToStringFrom_leaves rest parent _ hc.2.2.2.2]
    · simp
    · intro s hs
      simp only [List.map_append, List.mem_append, not_or]
      refine ⟨h s (Or.inr hs), ?_⟩
      intro hs'
      obtain ⟨k', _, h2⟩ := leaves_under d (newKey parent k) hc.2.2.2.1 s hs'
      exact apart hc.2.1 hc.2.2.1 hc.2.2.2.2 (starts_newKey (newKey_ne hc.1) h2) hs

theorem hasLeaf_ne {d : Cfgs} {p : List Key} {v : String} (h : HasLeaf d p v) : p ≠ [] := by
  induction h with
  | here => simp
  | inside => simp
  | later _ ih => exact ih

theorem below_cons {parent k : Key} {p : List Key} (hk : k ≠ []) (hp : p ≠ []) : below parent (k :: p) = below (newKey parent k) p := by
  have hd : dotted (k :: p) = k ++ '.' :: dotted p := by cases p <;> simp_all [dotted]
  simp only [below, newKey_ne hk, if_false, hd, newKey]
  split <;> simp

theorem below_one {parent k : Key} : below parent [k] = newKey parent k := rfl

theorem mem_leaves : (d : Cfgs) → (parent : Key) → d.Clean → ∀ s v, (s, v) ∈ leaves parent d ↔ ∃ p, HasLeaf d p v ∧ s = below parent p
  | .nil, _, _, s, v => by
    simp only [leaves, List.not_mem_nil, false_iff]
    rintro ⟨p, h, _⟩; cases h
  | .cons k (.leaf w) rest, parent, hc, s, v => by
    simp only [leaves, List.mem_cons, Prod.mk.injEq, mem_leaves rest parent hc.2.2.2.2 s v]
    constructor
    · rintro (⟨rfl, rfl⟩ | ⟨p, h, rfl⟩)
      · exact ⟨[k], .here, rfl⟩
      · exact ⟨p, .later h, rfl⟩
    · rintro ⟨p, h, rfl⟩
      cases h with
      | here => exact Or.inl ⟨rfl, rfl⟩
      | later h => exact Or.inr ⟨p, h, rfl⟩
  | .cons k (.dict d) rest, parent, hc, s, v => by
    simp only [leaves, List.mem_append, mem_leaves d (newKey parent k) hc.2.2.2.1 s v, mem_leaves rest parent hc.2.2.2.2 s v]
    constructor
    · rintro (⟨p, h, rfl⟩ | ⟨p, h, rfl⟩)
      · exact ⟨k :: p, .inside h, (below_cons hc.1 (hasLeaf_ne h)).symm⟩
      · exact ⟨p, .later h, rfl⟩
    · rintro ⟨p, h, rfl⟩
      cases h with
      | inside h => exact Or.inl ⟨_, h, below_cons hc.1 (hasLeaf_ne h)⟩
      | later h => exact Or.inr ⟨p, h, rfl⟩

/-- **C21** Flattening a (nested) dictionary: the entries of the result are exactly the leaves under their dotted paths,
and no key appears twice. -/
theorem dictToString_spec (d : Cfgs) (hc : d.Clean) :
    (∀ s v, (s, v) ∈ dictToString d ↔ ∃ p, HasLeaf d p v ∧ s = dotted p) ∧ ((dictToString d).map Prod.fst).Nodup := by
  have h : dictToString d = leaves [] d := by
    rw [dictToString, dictToStringFrom_leaves d [] [] hc (by simp)]; simp
  rw [h]
  exact ⟨fun s v => mem_leaves d [] hc s v, leaves_nodup d [] hc⟩

theorem hasLeaf_nodot {d : Cfgs} (hc : d.Clean) {p : List Key} {v : String} (h : HasLeaf d p v) : ∀ k ∈ p, '.' ∉ k := by
  induction h with
  | here => simpa using hc.2.1
  | inside _ ih =>
    intro k hk
    rcases List.mem_cons.1 hk with rfl | hk
    · exact hc.2.1
    · exact ih hc.2.2.2.1 k hk
  | later _ ih => exact ih hc.2.2.2.2

theorem dotted_inj : ∀ {p q : List Key}, p ≠ [] → q ≠ [] → (∀ k ∈ p, '.' ∉ k) → (∀ k ∈ q, '.' ∉ k) → dotted p = dotted q → p = q
  | [], _, h, _, _, _, _ => absurd rfl h
  | _, [], _, h, _, _, _ => absurd rfl h
  | [k], [l], _, _, _, _, h => by simpa [dotted] using h
  | [k], l :: m :: q, _, _, h1, _, h => by
    simp only [dotted] at h; exact absurd h fun h => dot_split' (h1 k (by simp)) h
  | k :: m :: p, [l], _, _, _, h2, h => by
    simp only [dotted] at h; exact absurd h.symm fun h => dot_split' (h2 l (by simp)) h
  | k :: m :: p, l :: n :: q, _, _, h1, h2, h => by
    simp only [dotted] at h
    obtain ⟨rfl, h'⟩ := dot_split (h1 k (by simp)) (h2 l (by simp)) h
    rw [dotted_inj (by simp) (by simp) (fun x hx => h1 x (List.mem_cons_of_mem _ hx)) (fun x hx => h2 x (List.mem_cons_of_mem _ hx)) h']

/-- **C21** Nothing is lost: two dictionaries with the same flattening have the same leaves at the same paths. -/
theorem dictToString_lossless (d e : Cfgs) (hd : d.Clean) (he : e.Clean) (h : dictToString d = dictToString e) :
    ∀ p v, HasLeaf d p v ↔ HasLeaf e p v := by
  have key : ∀ {d e : Cfgs}, d.Clean → e.Clean → dictToString d = dictToString e → ∀ p v, HasLeaf d p v → HasLeaf e p v := by
    intro d e hd he h p v hp
    have := (dictToString_spec d hd).1 (dotted p) v |>.2 ⟨p, hp, rfl⟩
    rw [h, (dictToString_spec e he).1] at this
    obtain ⟨q, hq, hpq⟩ := this
    rw [dotted_inj (hasLeaf_ne hp) (hasLeaf_ne hq) (hasLeaf_nodot hd hp) (hasLeaf_nodot he hq) hpq]
    exact hq
  exact fun p v => ⟨key hd he h p v, key he hd h.symm p v⟩

/-- A nested configuration. -/
def exampleCfg : Cfgs := .cons "a".toList (.leaf "1") (.cons "b".toList (.dict (.cons "a".toList (.leaf "2")
  (.cons "c".toList (.dict (.cons "d".toList (.leaf "3") .nil)) .nil))) .nil)

example : exampleCfg.Clean := by
  simp [exampleCfg, Cfgs.Clean, Cfg.Clean, Cfgs.keys]
example : dictToString exampleCfg = [("a".toList, "1"), ("b.a".toList, "2"), ("b.c.d".toList, "3")] := by decide

/-- Keys with dots may collide: the hypothesis on the keys is necessary. -/
theorem dotted_keys_collide :
    dictToString (.cons "a".toList (.dict (.cons "b".toList (.leaf "1") .nil)) (.cons "a.b".toList (.leaf "2") .nil)) =
      [("a.b".toList, "2")] := by decide

/-! ### C49: timestamps -/

/-- The rate in use is positive, equal to the absolute value of the given one unless that is zero; a warning is
emitted exactly when the given rate is not positive. -/
theorem effectiveRate_spec (rate : ℚ) :
    0 < (effectiveRate rate).1 ∧ (rate ≠ 0 → (effectiveRate rate).1 = |rate|) ∧ ((effectiveRate rate).2 = true ↔ rate ≤ 0) := by
  unfold effectiveRate
  rcases lt_trichotomy rate 0 with h | h | h
  · rw [if_neg h.ne, if_pos h]
    exact ⟨abs_pos.2 h.ne, fun _ => rfl, by simp [h.le]⟩
  · rw [if_pos h]
    exact ⟨by norm_num, fun h' => absurd h h', by simp [h]⟩
  · rw [if_neg h.ne', if_neg h.le.not_gt]
    exact ⟨h, fun _ => (abs_of_pos h).symm, by simpa using h⟩

/-- **C49** The timestamp of event `n` falls in its own period `[n/rate, (n+1)/rate)`. -/
theorem timestamp_in_period (rate : ℚ) (n : Nat) (u : ℚ) (h0 : 0 ≤ u) (h1 : u < 1) :
    n * (1 / (effectiveRate rate).1) ≤ createTimestamp rate n u ∧
      createTimestamp rate n u < (n + 1) * (1 / (effectiveRate rate).1) := by
  have hp : 0 < 1 / (effectiveRate rate).1 := one_div_pos.2 (effectiveRate_spec rate).1
  have hn : (0 : ℚ) ≤ n := Nat.cast_nonneg n
  simp only [createTimestamp]
  rw [abs_of_nonneg (mul_nonneg hn hp.le)]
  constructor
  · nlinarith
  · nlinarith

/-- **C49** Timestamps increase strictly with the event number, whatever the random numbers. -/
theorem timestamp_increasing (rate : ℚ) (n m : Nat) (h : n < m) (u w : ℚ) (hu : 0 ≤ u ∧ u < 1) (hw : 0 ≤ w ∧ w < 1) :
    createTimestamp rate n u < createTimestamp rate m w := by
  have h1 := (timestamp_in_period rate n u hu.1 hu.2).2
  have h2 := (timestamp_in_period rate m w hw.1 hw.2).1
  have hp : 0 < 1 / (effectiveRate rate).1 := one_div_pos.2 (effectiveRate_spec rate).1
  have : (n : ℚ) + 1 ≤ m := by exact_mod_cast h
  nlinarith

example : createTimestamp (-2) 3 (1 / 2) = 7 / 4 := by decide +kernel
example : (0 : ℚ) ≤ 1 / 2 ∧ (1 / 2 : ℚ) < 1 := by norm_num

end Verif.Components
