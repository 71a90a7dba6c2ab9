import Verif.Spec.PmapFlow
import Verif.Lemmas.DataflowClean
import Verif.Props.DataflowPipe
/-!
# C55: every event is accounted for in the production of PMaps
-/
namespace Verif.PmapFlow
open Verif.Dataflow
variable {W P : Type}

/-! ### Streams -/

theorem stream_map {α β : Type} (op : β → Except Exc β) (h h' : α → β) (xs : List α) (he : ∀ x ∈ xs, op (h x) = .ok (h' x)) :
    ((xs.map h).filterMap fun y => (op y).toOption) = xs.map h' := by
  induction xs with
  | nil => rfl
  | cons x xs ih =>
    rw [List.map_cons, List.map_cons, ← ih (fun y hy => he y (List.mem_cons_of_mem _ hy)), List.filterMap_cons_some (b := h' x)]
    rw [he x List.mem_cons_self]; rfl

theorem stream_filter {α β : Type} (p : β → Except Exc Bool) (h : α → β) (q : α → Bool) (xs : List α) (he : ∀ x ∈ xs, p (h x) = .ok (q x)) :
    ((xs.map h).filter fun y => (p y).toOption.getD false) = (xs.filter q).map h := by
  rw [List.filter_map]
  congr 1
  apply List.filter_congr
  intro x hx
  simp [Function.comp, he x hx, Except.toOption]

theorem stream_filter_not {α β : Type} (p : β → Except Exc Bool) (h : α → β) (q : α → Bool) (xs : List α) (he : ∀ x ∈ xs, p (h x) = .ok (q x)) :
    ((xs.map h).filter fun y => !(p y).toOption.getD false) = (xs.filter fun x => !q x).map h := by
  rw [List.filter_map]
  congr 1
  apply List.filter_congr
  intro x hx
  simp [Function.comp, he x hx, Except.toOption]

/-- The stages of `compute_and_write_pmaps`. -/
def stages (f : Fns W P) : List (CStage (Item W P)) :=
  [.mapIn 1 (indicesPass f), .sinkBranch 2 3, .countFilter 4 readIndices] ++
  (match f.sipmCal with
    | none => []
    | some g => [.mapIn 5 (calibrate g)]) ++
  [.mapIn 6 (computePmap f), .mapIn 7 (pmapsPass f), .sinkBranch 8 9, .countFilter 10 readPmaps, .sinkBranch 11 12]

theorem stages_net (f : Fns W P) : computePmaps f = (stages f).map CStage.net := by
  unfold computePmaps stages
  cases f.sipmCal <;> rfl

/-- The item after the check of the indices. -/
def marked (f : Fns W P) (x : Item W P) : Item W P := { x with indicesPass := some (checkNonemptyIndices (f.s1Size x.wfs) (f.s2Size x.wfs)) }

/-- What is left of the event at the end of the pipe. -/
structure Final (f : Fns W P) (x y : Item W P) : Prop where
  event : y.event = x.event
  pmap : ∃ p, pmapOf f x.wfs = .ok p ∧ y.pmap = some p ∧ y.pmapsPass = some (checkEmptyPmap f p)

theorem readIndices_marked (f : Fns W P) (x : Item W P) : readIndices (marked f x) = .ok (over f x) := by
  simp only [readIndices, marked, over, checkNonemptyIndices]
  by_cases h1 : f.s1Size x.wfs = 0 <;> by_cases h2 : f.s2Size x.wfs = 0 <;> simp [h1, h2]

theorem pipeline (f : Fns W P) (xs : List (Item W P)) (hc : ∀ x ∈ xs, over f x = true → ∃ p, pmapOf f x.wfs = .ok p) :
    ∃ F : Item W P → Item W P, (∀ x ∈ xs, over f x = true → Final f x (F x)) ∧
      streamOf (stages f) xs = (xs.filter (full f)).map F ∧ AllFine (stages f) xs ∧
      ∀ tr, AllSeen (stages f) xs tr →
        received 3 tr = xs.map (marked f) ∧
        received 9 tr = (xs.filter (over f)).map F ∧
        received 12 tr = (xs.filter (full f)).map F ∧
        results 4 tr = [.passedFailed (xs.filter (over f)).length (xs.filter fun x => !over f x).length] ∧
        results 10 tr = [.passedFailed (xs.filter (full f)).length (xs.filter fun x => over f x && !full f x).length] := by
  have e1 : (CStage.mapIn 1 (indicesPass f)).onList xs = xs.map (marked f) := by
    have := stream_map (indicesPass f) id (marked f) xs (fun x _ => rfl)
    simpa [CStage.onList] using this
  have f1 : (CStage.mapIn 1 (indicesPass f)).Fine xs := fun x _ => ⟨_, rfl⟩
  have e4 : (CStage.countFilter 4 readIndices).onList (xs.map (marked f)) = (xs.filter (over f)).map (marked f) :=
    stream_filter readIndices (marked f) (over f) xs (fun x _ => readIndices_marked f x)
  have e4' := stream_filter_not readIndices (marked f) (over f) xs (fun x _ => readIndices_marked f x)
  have f4 : (CStage.countFilter 4 readIndices).Fine (xs.map (marked f)) := by
    intro y hy
    obtain ⟨x, _, rfl⟩ := List.mem_map.1 hy
    exact ⟨_, readIndices_marked f x⟩
  have hz : ∀ z ∈ xs.filter (over f), ∃ p, pmapOf f z.wfs = .ok p := by
    intro z hz
    obtain ⟨a, b⟩ := List.mem_filter.1 hz
    exact hc z a b
  -- the last five stages, from any item with the same event and a PMap
  have tail : ∀ (C : Item W P → Item W P), (∀ z ∈ xs.filter (over f), (C z).event = z.event ∧ ∃ p, pmapOf f z.wfs = .ok p ∧ f.build (C z).wfs = .ok p) →
      ∃ F : Item W P → Item W P, (∀ z ∈ xs.filter (over f), Final f z (F z)) ∧
        (CStage.mapIn 6 (computePmap f)).Fine ((xs.filter (over f)).map C) ∧
        (CStage.mapIn 7 (pmapsPass f)).Fine ((CStage.mapIn 6 (computePmap f)).onList ((xs.filter (over f)).map C)) ∧
        (CStage.mapIn 7 (pmapsPass f)).onList ((CStage.mapIn 6 (computePmap f)).onList ((xs.filter (over f)).map C)) = (xs.filter (over f)).map F ∧
        (CStage.countFilter 10 readPmaps).Fine ((xs.filter (over f)).map F) ∧
        (CStage.countFilter 10 readPmaps).onList ((xs.filter (over f)).map F) = (xs.filter (full f)).map F ∧
        (((xs.filter (over f)).map F).filter fun y => !(readPmaps y).toOption.getD false).length = (xs.filter fun x => over f x && !full f x).length := by
    intro C hC
    let M : Item W P → Item W P := fun z => (computePmap f (C z)).toOption.getD z
    let F : Item W P → Item W P := fun z => (pmapsPass f (M z)).toOption.getD z
    have hM : ∀ z ∈ xs.filter (over f), computePmap f (C z) = .ok (M z) ∧ (M z).event = z.event ∧ ∃ p, pmapOf f z.wfs = .ok p ∧ (M z).pmap = some p := by
      intro z hz
      obtain ⟨h1, p, h2, h3⟩ := hC z hz
      have e : computePmap f (C z) = .ok { C z with pmap := some p } := by simp [computePmap, h3]
      have e' : M z = { C z with pmap := some p } := by simp only [M, e, Except.toOption, Option.getD_some]
      exact ⟨by rw [e, e'], by rw [e']; exact h1, p, h2, by rw [e']⟩
    have hF : ∀ z ∈ xs.filter (over f), pmapsPass f (M z) = .ok (F z) ∧ Final f z (F z) := by
      intro z hz
      obtain ⟨_, h1, p, h2, h3⟩ := hM z hz
      have e : pmapsPass f (M z) = .ok { M z with pmapsPass := some (checkEmptyPmap f p) } := by simp [pmapsPass, h3]
      have e' : F z = { M z with pmapsPass := some (checkEmptyPmap f p) } := by simp only [F, e, Except.toOption, Option.getD_some]
      exact ⟨by rw [e, e'], ⟨by rw [e']; exact h1, p, h2, by rw [e']; exact h3, by rw [e']⟩⟩
    have hR : ∀ z ∈ xs.filter (over f), readPmaps (F z) = .ok (full f z) := by
      intro z hz
      obtain ⟨_, _, p, h2, _, h4⟩ := hF z hz
      have ho := (List.mem_filter.1 hz).2
      rw [readPmaps, h4]
      simp [full, ho, h2, checkEmptyPmap, Bool.decide_or]
    have eM := stream_map (computePmap f) C M (xs.filter (over f)) (fun z hz => (hM z hz).1)
    have eF := stream_map (pmapsPass f) M F (xs.filter (over f)) (fun z hz => (hF z hz).1)
    have hfull : (xs.filter (over f)).filter (full f) = xs.filter (full f) := by
      rw [List.filter_filter]
      apply List.filter_congr
      intro x _
      cases ho : over f x <;> simp [full, ho]
    refine ⟨F, fun z hz => (hF z hz).2, ?_, ?_, ?_, ?_, ?_, ?_⟩
    · intro y hy
      obtain ⟨z, hz, rfl⟩ := List.mem_map.1 hy
      exact ⟨_, (hM z hz).1⟩
    · intro y hy
      rw [show (CStage.mapIn 6 (computePmap f)).onList ((xs.filter (over f)).map C) = (xs.filter (over f)).map M from eM] at hy
      obtain ⟨z, hz, rfl⟩ := List.mem_map.1 hy
      exact ⟨_, (hF z hz).1⟩
    · rw [show (CStage.mapIn 6 (computePmap f)).onList ((xs.filter (over f)).map C) = (xs.filter (over f)).map M from eM]
      exact eF
    · intro y hy
      obtain ⟨z, hz, rfl⟩ := List.mem_map.1 hy
      exact ⟨_, hR z hz⟩
    · have := stream_filter readPmaps F (full f) (xs.filter (over f)) hR
      rw [hfull] at this
      exact this
    · rw [stream_filter_not readPmaps F (full f) (xs.filter (over f)) hR, List.length_map, List.filter_filter]
      congr 1
      apply List.filter_congr
      intro x _
      rw [Bool.and_comm]
  cases hcal : f.sipmCal with
  | none =>
    obtain ⟨F, t1, t2, t3, t4, t5, t6, t7⟩ := tail (marked f) (by
      intro z hz'
      obtain ⟨p, hp⟩ := hz z hz'
      refine ⟨rfl, p, hp, ?_⟩
      rw [pmapOf, hcal] at hp
      exact hp)
    have hst : stages f = [.mapIn 1 (indicesPass f), .sinkBranch 2 3, .countFilter 4 readIndices, .mapIn 6 (computePmap f), .mapIn 7 (pmapsPass f),
        .sinkBranch 8 9, .countFilter 10 readPmaps, .sinkBranch 11 12] := by rw [stages, hcal]; rfl
    refine ⟨F, fun x hx ho => t1 x (List.mem_filter.2 ⟨hx, ho⟩), ?_, ?_, ?_⟩
    · rw [hst]
      simp only [streamOf, e1, show ∀ a b (l : List (Item W P)), (CStage.sinkBranch a b).onList l = l from fun _ _ _ => rfl, e4, t4, t6]
    · rw [hst]
      simp only [AllFine, e1, show ∀ a b (l : List (Item W P)), (CStage.sinkBranch a b).onList l = l from fun _ _ _ => rfl, e4, t4, t6]
      exact ⟨f1, trivial, f4, t2, t3, trivial, t5, trivial, trivial⟩
    · intro tr htr
      rw [hst] at htr
      simp only [AllSeen, e1, show ∀ a b (l : List (Item W P)), (CStage.sinkBranch a b).onList l = l from fun _ _ _ => rfl, e4, t4, t6] at htr
      obtain ⟨_, s3, s4, _, _, s9, s10, s12, _⟩ := htr
      refine ⟨s3, s9, s12, ?_, ?_⟩
      · simp only [CStage.Seen] at s4
        rw [s4, e4', show ((xs.map (marked f)).filter fun x => (readIndices x).toOption.getD false) = _ from e4]
        simp
      · simp only [CStage.Seen] at s10
        rw [s10, t7, show (((xs.filter (over f)).map F).filter fun x => (readPmaps x).toOption.getD false) = _ from t6]
        simp
  | some g =>
    let C : Item W P → Item W P := fun z => (calibrate g (marked f z)).toOption.getD z
    have hC : ∀ z ∈ xs.filter (over f), calibrate g (marked f z) = .ok (C z) ∧ (C z).event = z.event ∧ ∃ p, pmapOf f z.wfs = .ok p ∧ f.build (C z).wfs = .ok p := by
      intro z hz'
      obtain ⟨p, hp⟩ := hz z hz'
      have hp' := hp
      rw [pmapOf, hcal] at hp'
      simp only at hp'
      cases hg : g z.wfs with
      | error e => rw [hg] at hp'; cases hp'
      | ok w =>
        rw [hg] at hp'
        have e : calibrate g (marked f z) = .ok { marked f z with wfs := w } := by simp [calibrate, marked, hg]
        have e' : C z = { marked f z with wfs := w } := by simp only [C, e, Except.toOption, Option.getD_some]
        exact ⟨by rw [e, e'], by rw [e']; rfl, p, hp, by rw [e']; exact hp'⟩
    have e5 : (CStage.mapIn 5 (calibrate g)).onList ((xs.filter (over f)).map (marked f)) = (xs.filter (over f)).map C :=
      stream_map (calibrate g) (marked f) C _ (fun z hz' => (hC z hz').1)
    have f5 : (CStage.mapIn 5 (calibrate g)).Fine ((xs.filter (over f)).map (marked f)) := by
      intro y hy
      obtain ⟨z, hz', rfl⟩ := List.mem_map.1 hy
      exact ⟨_, (hC z hz').1⟩
    obtain ⟨F, t1, t2, t3, t4, t5, t6, t7⟩ := tail C (fun z hz' => (hC z hz').2)
    have hst : stages f = [.mapIn 1 (indicesPass f), .sinkBranch 2 3, .countFilter 4 readIndices, .mapIn 5 (calibrate g), .mapIn 6 (computePmap f), .mapIn 7 (pmapsPass f),
        .sinkBranch 8 9, .countFilter 10 readPmaps, .sinkBranch 11 12] := by rw [stages, hcal]; rfl
    refine ⟨F, fun x hx ho => t1 x (List.mem_filter.2 ⟨hx, ho⟩), ?_, ?_, ?_⟩
    · rw [hst]
      simp only [streamOf, e1, show ∀ a b (l : List (Item W P)), (CStage.sinkBranch a b).onList l = l from fun _ _ _ => rfl, e4, e5, t4, t6]
    · rw [hst]
      simp only [AllFine, e1, show ∀ a b (l : List (Item W P)), (CStage.sinkBranch a b).onList l = l from fun _ _ _ => rfl, e4, e5, t4, t6]
      exact ⟨f1, trivial, f4, f5, t2, t3, trivial, t5, trivial, trivial⟩
    · intro tr htr
      rw [hst] at htr
      simp only [AllSeen, e1, show ∀ a b (l : List (Item W P)), (CStage.sinkBranch a b).onList l = l from fun _ _ _ => rfl, e4, e5, t4, t6] at htr
      obtain ⟨_, s3, s4, _, _, _, s9, s10, s12, _⟩ := htr
      refine ⟨s3, s9, s12, ?_, ?_⟩
      · simp only [CStage.Seen] at s4
        rw [s4, e4', show ((xs.map (marked f)).filter fun x => (readIndices x).toOption.getD false) = _ from e4]
        simp
      · simp only [CStage.Seen] at s10
        rw [s10, t7, show (((xs.filter (over f)).map F).filter fun x => (readPmaps x).toOption.getD false) = _ from t6]
        simp

/-! ### What is written -/

/-- The properties of the tables written from a trace. -/
structure Tables (f : Fns W P) (xs : List (Item W P)) (tr : List (Ev (Item W P))) : Prop where
  indices : indexRows tr = xs.map fun x => (x.event, over f x)
  pmapFilter : pmapRows tr = (xs.filter (over f)).map fun x => (x.event, full f x)
  pmaps : pmapsWritten tr = (xs.filter (full f)).map fun x => (x.event, (pmapOf f x.wfs).toOption)
  overThr : results 4 tr = [.passedFailed (xs.filter (over f)).length (xs.filter fun x => !over f x).length]
  fullPmap : results 10 tr = [.passedFailed (xs.filter (full f)).length (xs.filter fun x => over f x && !full f x).length]

theorem full_over {f : Fns W P} {x : Item W P} (h : full f x = true) : over f x = true := by
  unfold full at h
  rw [Bool.and_eq_true] at h
  exact h.1

theorem tables_of (f : Fns W P) (xs : List (Item W P)) (F : Item W P → Item W P) (hF : ∀ x ∈ xs, over f x = true → Final f x (F x))
    (tr : List (Ev (Item W P))) (h : received 3 tr = xs.map (marked f) ∧ received 9 tr = (xs.filter (over f)).map F ∧
        received 12 tr = (xs.filter (full f)).map F ∧
        results 4 tr = [.passedFailed (xs.filter (over f)).length (xs.filter fun x => !over f x).length] ∧
        results 10 tr = [.passedFailed (xs.filter (full f)).length (xs.filter fun x => over f x && !full f x).length]) : Tables f xs tr := by
  obtain ⟨h3, h9, h12, h4, h10⟩ := h
  refine ⟨?_, ?_, ?_, h4, h10⟩
  · rw [indexRows, h3, List.map_map]
    apply List.map_congr_left
    intro x _
    have := readIndices_marked f x
    simp only [readIndices, marked, Except.ok.injEq] at this
    show (x.event, decide (checkNonemptyIndices (f.s1Size x.wfs) (f.s2Size x.wfs) ≠ 0)) = (x.event, over f x)
    rw [this]
  · rw [pmapRows, h9, List.map_map]
    apply List.map_congr_left
    intro x hx
    obtain ⟨a, b⟩ := List.mem_filter.1 hx
    obtain ⟨e, p, p1, p2, p3⟩ := hF x a b
    simp only [Function.comp, e, p3, Option.getD_some]
    simp [full, b, p1, checkEmptyPmap, Bool.decide_or]
  · rw [pmapsWritten, h12, List.map_map]
    apply List.map_congr_left
    intro x hx
    obtain ⟨a, b⟩ := List.mem_filter.1 hx
    obtain ⟨e, p, p1, p2, p3⟩ := hF x a (full_over b)
    simp only [Function.comp, e, p2, p1, Except.toOption]

theorem stages_ids (f : Fns W P) : ∀ j ∈ (stages f).flatMap CStage.ids, j ≤ 12 := by
  unfold stages
  cases f.sipmCal <;> simp [CStage.ids]

theorem stages_nodup (f : Fns W P) : ((stages f).flatMap CStage.ids).Nodup := by
  unfold stages
  cases f.sipmCal <;> simp [CStage.ids]

/-- **C55** Whatever comes after (as long as it raises nothing): every event that enters `compute_and_write_pmaps` has one row in the filter of the indices, in
order, with the right flag; those that pass have one row in the filter of the PMaps; a PMap is written exactly for those that pass both, with the event number
of its waveforms; the counters agree; and exactly those events go on. -/
theorem pmaps_accounting (f : Fns W P) (down : Net (Item W P)) (hn : down.ids.Nodup) (hd : ∀ j ∈ down.ids, 12 < j)
    (hdown : ∀ ys, Clean down (init down) ys) (xs : List (Item W P)) (hc : ∀ x ∈ xs, over f x = true → ∃ p, pmapOf f x.wfs = .ok p) :
    (push xs (pipe (computePmaps f) down)).exc = none ∧ (push xs (pipe (computePmaps f) down)).consumed = xs.length ∧
    Tables f xs (push xs (pipe (computePmaps f) down)).trace ∧
    ∃ ys : List (Item W P), only down.ids (push xs (pipe (computePmaps f) down)).trace = (push ys down).trace ∧
      ys.map (fun y => (y.event, y.pmap)) = (xs.filter (full f)).map fun x => (x.event, (pmapOf f x.wfs).toOption) := by
  obtain ⟨F, hF, hs, hfine, hseen⟩ := pipeline f xs hc
  rw [stages_net]
  have hnd : (pipe ((stages f).map CStage.net) down).ids.Nodup := by
    rw [pipe_ids, List.nodup_append]
    refine ⟨stages_nodup f, hn, fun a ha b hb he => ?_⟩
    have h1 := stages_ids f a ha
    have h2 := hd b hb
    omega
  obtain ⟨c1, c2, c3⟩ := clean_pipe (stages f) down xs hnd hfine (hdown _)
  obtain ⟨r1, r2⟩ := c1.run
  refine ⟨r1, r2, tables_of f xs F hF _ (hseen _ c3), _, c2, ?_⟩
  rw [hs, List.map_map]
  apply List.map_congr_left
  intro x hx
  obtain ⟨a, b⟩ := List.mem_filter.1 hx
  obtain ⟨e, p, p1, p2, p3⟩ := hF x a (full_over b)
  simp only [Function.comp, e, p2, p1, Except.toOption]

/-- Waveforms: numbers of S1 and S2 samples and of peaks. -/
def exFns : Fns (Nat × Nat × Nat) Nat := ⟨fun w => w.1, fun w => w.2.1, some fun w => .ok (w.1, w.2.1, w.2.2 + 1), fun w => if w.2.2 = 9 then .error (.err 3) else .ok (w.2.2 - 1), fun p => p, fun _ => 0⟩

example : (∀ x ∈ ([⟨1, (2, 3, 2), none, none, none⟩, ⟨2, (0, 3, 8), none, none, none⟩, ⟨3, (1, 1, 0), none, none, none⟩] : List (Item (Nat × Nat × Nat) Nat)),
      over exFns x = true → ∃ p, pmapOf exFns x.wfs = .ok p) ∧
    pmapsWritten (push [⟨1, (2, 3, 2), none, none, none⟩, ⟨2, (0, 3, 8), none, none, none⟩, ⟨3, (1, 1, 0), none, none, none⟩]
      (pipe (computePmaps exFns) (.sink 99 fun _ => none))).trace = [(1, some 2)] ∧
    indexRows (push [⟨1, (2, 3, 2), none, none, none⟩, ⟨2, (0, 3, 8), none, none, none⟩, ⟨3, (1, 1, 0), none, none, none⟩]
      (pipe (computePmaps exFns) (.sink 99 fun _ => none))).trace = [(1, true), (2, false), (3, true)] := by
  refine ⟨?_, by decide, by decide⟩
  intro x hx ho
  simp only [List.mem_cons, List.not_mem_nil, or_false] at hx
  rcases hx with rfl | rfl | rfl
  · exact ⟨2, rfl⟩
  · simp [over, exFns] at ho
  · exact ⟨0, rfl⟩

/-! ### Irene -/

/-- The stages of irene after the slice. -/
def ireneStages (prepare : Item W P → Except Exc (Item W P)) (f : Fns W P) : List (CStage (Item W P)) :=
  [CStage.countBranch 31 32, CStage.mapIn 33 prepare] ++ stages f ++ [CStage.countBranch 20 21, CStage.sinkBranch 22 23]


theorem irene_net (start : Nat) (stop : Option Nat) (gap : Nat) (prepare : Item W P → Except Exc (Item W P)) (f : Fns W P) :
    irene start stop gap prepare f = .slice 30 start stop gap true
      (pipe ((ireneStages prepare f).map CStage.net)
        (.fork 24 (.ofList [.sink 25 fun _ => none, .sink 26 fun _ => none]))) := by
  unfold irene ireneEnd
  rw [stages_net]
  simp [ireneStages, pipe, spyCount, CStage.net, List.foldr_append]

/-- **C55** The run of irene on a list of events, the first functions raising nothing: the tables are those of the events in the range; the
events in `Run/events`, in the trigger tables and in the list of event numbers are those of the PMaps, in the same order; the counters of events in and out agree. -/
theorem irene_accounting (start : Nat) (stop : Option Nat) (gap : Nat) (prepare : Item W P → Except Exc (Item W P)) (prep : Item W P → Item W P)
    (f : Fns W P) (events : List (Item W P))
    (hprep : ∀ x ∈ events, prepare x = .ok (prep x) ∧ (prep x).event = x.event)
    (hc : ∀ x ∈ events, over f (prep x) = true → ∃ p, pmapOf f (prep x).wfs = .ok p) :
    let taken := (pySlice start stop (gap + 1) events).map prep
    let tr := (push events (irene start stop gap prepare f)).trace
    (push events (irene start stop gap prepare f)).exc = none ∧
    Tables f taken tr ∧
    results 32 tr = [.num taken.length] ∧
    results 21 tr = [.num (taken.filter (full f)).length] ∧
    (∀ writer ∈ [23, 25, 26], (received writer tr).map (fun y => (y.event, y.pmap)) = pmapsWritten tr) := by
  intro taken tr
  have hmem : ∀ x ∈ pySlice start stop (gap + 1) events, x ∈ events := by
    intro x hx
    simp only [pySlice, List.mem_map, List.mem_filter] at hx
    obtain ⟨⟨y, i⟩, ⟨h1, _⟩, rfl⟩ := hx
    exact List.fst_mem_of_mem_zipIdx h1
  have e33 : (CStage.mapIn 33 prepare).onList (pySlice start stop (gap + 1) events) = taken := by
    have := stream_map prepare id prep (pySlice start stop (gap + 1) events) (fun x hx => (hprep x (hmem x hx)).1)
    simpa [CStage.onList] using this
  have f33 : (CStage.mapIn 33 prepare).Fine (pySlice start stop (gap + 1) events) := fun x hx => ⟨_, (hprep x (hmem x hx)).1⟩
  have hct : ∀ x ∈ taken, over f x = true → ∃ p, pmapOf f x.wfs = .ok p := by
    intro x hx ho
    obtain ⟨z, hz, rfl⟩ := List.mem_map.1 hx
    exact hc z (hmem z hz) ho
  obtain ⟨F, hF, hs, hfine, hseen⟩ := pipeline f taken hct
  -- stages of a concatenation
  have app_stream : ∀ (a b : List (CStage (Item W P))) xs, streamOf (a ++ b) xs = streamOf b (streamOf a xs) := by
    intro a b
    induction a with
    | nil => intro xs; rfl
    | cons s a ih => intro xs; exact ih _
  have app_fine : ∀ (a b : List (CStage (Item W P))) xs, AllFine a xs → AllFine b (streamOf a xs) → AllFine (a ++ b) xs := by
    intro a b
    induction a with
    | nil => intro xs _ h; exact h
    | cons s a ih => intro xs h1 h2; exact ⟨h1.1, ih _ h1.2 h2⟩
  have app_seen : ∀ (a b : List (CStage (Item W P))) xs tr, AllSeen (a ++ b) xs tr → AllSeen a xs tr ∧ AllSeen b (streamOf a xs) tr := by
    intro a b
    induction a with
    | nil => intro xs tr h; exact ⟨trivial, h⟩
    | cons s a ih => intro xs tr h; exact ⟨⟨h.1, (ih _ _ h.2).1⟩, (ih _ _ h.2).2⟩
  have hpre : streamOf [CStage.countBranch 31 32, CStage.mapIn 33 prepare] (pySlice start stop (gap + 1) events) = taken := by
    simp only [streamOf]
    exact e33
  have hfork := clean_fork_two (α := Item W P) 24 25 26 (by decide) ((taken.filter (full f)).map F)
  have hstream : streamOf (ireneStages prepare f) (pySlice start stop (gap + 1) events) =
      (taken.filter (full f)).map F := by
    rw [ireneStages, app_stream, app_stream, hpre, hs]; rfl
  have hnd : (pipe ((ireneStages prepare f).map CStage.net)
        (.fork 24 (.ofList [.sink 25 fun _ => none, .sink 26 fun _ => none]) : Net (Item W P))).ids.Nodup := by
    rw [pipe_ids]
    simp only [ireneStages, List.flatMap_append, List.flatMap_cons, List.flatMap_nil, CStage.ids, Net.ids, Nets.ids, Nets.ofList]
    have h1 := stages_nodup f
    have h2 := stages_ids f
    generalize (stages f).flatMap CStage.ids = l at h1 h2
    have h3 : ∀ j, 12 < j → j ∉ l := fun j hj hm => by have := h2 j hm; omega
    simp [List.nodup_append, h1, h3]
    intro a ha
    have := h2 a ha
    omega
  obtain ⟨c1, c2, c3⟩ := clean_pipe _ (.fork 24 (.ofList [.sink 25 fun _ => none, .sink 26 fun _ => none])) (pySlice start stop (gap + 1) events) hnd
    (app_fine _ _ _ (app_fine _ _ _ ⟨trivial, f33, trivial⟩ (by rw [hpre]; exact hfine)) ⟨trivial, trivial, trivial⟩)
    (by rw [hstream]; exact hfork.1)
  have hsl := slice_selects 30 start stop gap true
    (pipe ((ireneStages prepare f).map CStage.net)
        (.fork 24 (.ofList [.sink 25 fun _ => none, .sink 26 fun _ => none]))) events
  rw [← irene_net] at hsl
  have hrec : ∀ c, received c tr = received c (push (pySlice start stop (gap + 1) events)
      (pipe ((ireneStages prepare f).map CStage.net)
        (.fork 24 (.ofList [.sink 25 fun _ => none, .sink 26 fun _ => none])))).trace := by
    intro c
    show received c (push events (irene start stop gap prepare f)).trace = _
    rw [hsl.1, received_append]; simp [received]
  have hres : ∀ c, results c tr = results c (push (pySlice start stop (gap + 1) events)
      (pipe ((ireneStages prepare f).map CStage.net)
        (.fork 24 (.ofList [.sink 25 fun _ => none, .sink 26 fun _ => none])))).trace := by
    intro c
    show results c (push events (irene start stop gap prepare f)).trace = _
    rw [hsl.1, results_append]; simp [results]
  obtain ⟨s1, s2⟩ := app_seen _ _ _ _ c3
  obtain ⟨s3, s4⟩ := app_seen _ _ _ _ s1
  rw [hpre] at s4
  rw [app_stream, hpre, hs] at s2
  have hseen' := hseen _ s4
  have htab : Tables f taken tr := by
    apply tables_of f taken F hF
    rw [hrec, hrec, hrec, hres, hres]
    exact hseen'
  have hw : pmapsWritten tr = ((taken.filter (full f)).map F).map fun y => (y.event, y.pmap) := by
    rw [pmapsWritten, hrec, hseen'.2.2.1]
  refine ⟨?_, htab, ?_, ?_, ?_⟩
  · rw [hsl.2]; exact c1.run.1
  · rw [hres]
    have := s3.1
    simp only [CStage.Seen] at this
    rw [this]
    simp [taken]
  · rw [hres]
    have := s2.1
    simp only [CStage.Seen] at this
    rw [this]
    simp
  · intro writer hwr
    rw [hw, hrec]
    congr 1
    simp only [List.mem_cons, List.not_mem_nil, or_false] at hwr
    have hids : ∀ c, c ∈ (Net.fork 24 (.ofList [.sink 25 fun _ => none, .sink 26 fun _ => none]) : Net (Item W P)).ids →
        received c (push (pySlice start stop (gap + 1) events)
          (pipe ((ireneStages prepare f).map CStage.net)
            (.fork 24 (.ofList [.sink 25 fun _ => none, .sink 26 fun _ => none])))).trace =
        received c (push ((taken.filter (full f)).map F) (.fork 24 (.ofList [.sink 25 fun _ => none, .sink 26 fun _ => none]))).trace := by
      intro c hcm
      rw [← received_ids hcm, c2, hstream]
    rcases hwr with rfl | rfl | rfl
    · have := s2.2.1
      simp only [CStage.Seen] at this
      exact this
    · rw [hids 25 (by simp [Net.ids, Nets.ids, Nets.ofList])]; exact hfork.2.1
    · rw [hids 26 (by simp [Net.ids, Nets.ids, Nets.ofList])]; exact hfork.2.2

/-- Four events, the first outside the range; the second passes both filters, the third has no S1 sample. -/
def exEvents : List (Item (Nat × Nat × Nat) Nat) :=
  [⟨1, (2, 3, 2), none, none, none⟩, ⟨2, (2, 3, 2), none, none, none⟩, ⟨3, (0, 3, 8), none, none, none⟩, ⟨4, (1, 1, 0), none, none, none⟩]

example : (∀ x ∈ exEvents, (Except.ok x : Except Exc (Item (Nat × Nat × Nat) Nat)) = .ok (id x) ∧ (id x).event = x.event) ∧
    (∀ x ∈ exEvents, over exFns (id x) = true → ∃ p, pmapOf exFns (id x).wfs = .ok p) ∧
    pmapsWritten (push exEvents (irene 1 (some 4) 0 .ok exFns)).trace = [(2, some 2)] ∧
    ((received 25 (push exEvents (irene 1 (some 4) 0 .ok exFns)).trace).map fun y => (y.event, y.pmap)) = [(2, some 2)] ∧
    results 32 (push exEvents (irene 1 (some 4) 0 .ok exFns)).trace = [.num 3] := by
  refine ⟨fun x _ => ⟨rfl, rfl⟩, ?_, by decide, by decide, by decide⟩
  intro x hx ho
  simp only [exEvents, List.mem_cons, List.not_mem_nil, or_false] at hx
  rcases hx with rfl | rfl | rfl | rfl
  · exact ⟨2, rfl⟩
  · exact ⟨2, rfl⟩
  · simp [over, exFns] at ho
  · exact ⟨0, rfl⟩

end Verif.PmapFlow
