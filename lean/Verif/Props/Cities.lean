import Verif.Model.Cities
import Verif.Spec.Cities
import Verif.Lemmas.DataflowStep
import Verif.Props.DataflowLife
/-!
# Accounting of events in dorothea and sophronia
-/
namespace Verif.Cities
open Verif.Dataflow

section general
variable {α β γ : Type}

theorem flatMap_if (p : α → Bool) (g : α → γ) (xs : List α) : (xs.flatMap fun x => if p x then [g x] else []) = (xs.filter p).map g := by
  induction xs with
  | nil => rfl
  | cons x xs ih => cases h : p x <;> simp [List.flatMap_cons, h, ih]

/-- A table of a city: one row for each event of the range that reaches the writer. -/
theorem table_of_feeds {es : List α} {n : Net α} {r : Run α} (i : Nat) (row : α → Option γ) (p : α → Bool) (g : α → γ)
    (h : received i r.trace = es.flatMap (feeds i n)) (hf : ∀ x, (feeds i n x).filterMap row = if p x then [g x] else []) :
    table i row r = (es.filter p).map g := by
  rw [table, h, List.filterMap_flatMap, ← flatMap_if]
  congr 1
  funext x
  exact hf x

theorem table_of_feeds_all {es : List α} {n : Net α} {r : Run α} (i : Nat) (row : α → Option γ) (g : α → γ)
    (h : received i r.trace = es.flatMap (feeds i n)) (hf : ∀ x, (feeds i n x).filterMap row = [g x]) :
    table i row r = es.map g := by
  rw [table_of_feeds i row (fun _ => true) g h (by intro x; simp [hf])]
  rw [List.filter_eq_self.2 (fun _ _ => rfl)]

theorem table_of_feeds_opt {es : List α} {n : Net α} {r : Run α} (i : Nat) (row : α → Option γ) (g : α → Option γ)
    (h : received i r.trace = es.flatMap (feeds i n)) (hf : ∀ x, (feeds i n x).filterMap row = (g x).toList) :
    table i row r = es.filterMap g := by
  rw [table, h, List.filterMap_flatMap]
  clear h
  induction es with
  | nil => rfl
  | cons x es ih => rw [List.flatMap_cons, ih, hf]; cases hx : g x <;> simp [hx]

/-- The future of a counter. -/
theorem count_of_feeds {es : List α} {m n : Net α} {xs : List α} (i : Nat) (p : α → Bool) (hn : m.ids.Nodup) (hp : Part (.count i) m)
    (h : received i (push xs m).trace = es.flatMap (feeds i n)) (hf : ∀ x, (feeds i n x).length = if p x then 1 else 0) :
    futures i (push xs m) = [.num (es.countP p)] := by
  rw [futures, count_future m hn i hp xs, h, List.length_flatMap]
  clear h
  congr 2
  induction es with
  | nil => rfl
  | cons x es ih => rw [List.map_cons, List.sum_cons, ih]; cases hx : p x <;> simp [hf, hx, Nat.add_comm]

/-- The future of a counting filter. -/
theorem countFilter_of_feeds {es : List α} {m n : Net α} {xs : List α} (i : Nat) (q : α → Except Exc Bool) (t : Net α) (p ok : α → Bool) (hn : m.ids.Nodup)
    (hp : Part (.countFilter i q t) m) (h : received i (push xs m).trace = es.flatMap (feeds i n))
    (hf : ∀ x, (feeds i n x).countP (gave q true) = (if p x && ok x then 1 else 0) ∧ (feeds i n x).countP (gave q false) = (if p x && !ok x then 1 else 0)) :
    futures i (push xs m) = [.passedFailed (es.countP fun x => p x && ok x) (es.countP fun x => p x && !ok x)] := by
  rw [futures, countFilter_future m hn i q t hp xs, h]
  clear h
  congr 2
  · induction es with
    | nil => rfl
    | cons x es ih => rw [List.flatMap_cons, List.countP_append, ih, (hf x).1, List.countP_cons]; omega
  · induction es with
    | nil => rfl
    | cons x es ih => rw [List.flatMap_cons, List.countP_append, ih, (hf x).2, List.countP_cons]; omega

end general

section dorothea
variable {P S K H : Type} (f : Select P S K)

/-- The selection of an event. -/
def selected (x : KrItem P S K H) : Bool := f.passed (f.classify x.pmap)

theorem dorothea_step (x : KrItem P S K H) : step (dorotheaPipe f) x =
    (let y : KrItem P S K H := { x with selector := some (f.classify x.pmap), passed := some (selected f x) }
     let z : KrItem P S K H := { y with kr := some (f.build x.event x.time x.pmap (f.classify x.pmap)) }
     if selected f x then some (z, [(2, x), (6, y), (7, y), (9, y), (12, z), (13, z), (14, z)])
     else some (y, [(2, x), (6, y), (7, y)])) := by
  cases h : selected f x <;> unfold selected at h <;>
  simp [dorotheaPipe, selection, buildKr, pipe, spyCount, mapField, writer, need, step, steps, Nets.ofList, h, KrItem.filterRow, KrItem.infoRow, KrItem.number]

/-- **C66** dorothea, for any events, range and functions: nothing is lost.  `Filters/s12_selector` has a row for every event of the range, with the decision of the selector; `DST/Events`,
`Run/events` and the list of event numbers have exactly the selected ones, in the order of the source; the counters agree. -/
theorem dorothea_accounts (start : Nat) (stop : Option Nat) (gap : Nat) (xs : List (KrItem P S K H)) :
    (push xs (dorothea f start stop gap)).exc = none ∧
    table 6 KrItem.filterRow (push xs (dorothea f start stop gap)) = (pySlice start stop (gap + 1) xs).map (fun x => (x.event, selected f x)) ∧
    table 13 KrItem.kr (push xs (dorothea f start stop gap)) =
      ((pySlice start stop (gap + 1) xs).filter (selected f)).map (fun x => f.build x.event x.time x.pmap (f.classify x.pmap)) ∧
    table 14 KrItem.infoRow (push xs (dorothea f start stop gap)) = ((pySlice start stop (gap + 1) xs).filter (selected f)).map (fun x => (x.event, x.time)) ∧
    table 12 KrItem.number (push xs (dorothea f start stop gap)) = ((pySlice start stop (gap + 1) xs).filter (selected f)).map (fun x => x.event) ∧
    futures 2 (push xs (dorothea f start stop gap)) = [.num (pySlice start stop (gap + 1) xs).length] ∧
    futures 9 (push xs (dorothea f start stop gap)) = [.num ((pySlice start stop (gap + 1) xs).countP (selected f))] ∧
    futures 7 (push xs (dorothea f start stop gap)) =
      [.passedFailed ((pySlice start stop (gap + 1) xs).countP (selected f)) ((pySlice start stop (gap + 1) xs).countP (fun x => !selected f x))] := by
  have hs : (dorotheaPipe (H := H) f).Sums := by
    simp [dorotheaPipe, selection, buildKr, pipe, spyCount, mapField, writer, Net.Sums, Nets.Sums, Nets.ofList]
  have hi : (dorothea (H := H) f start stop gap).ids.Nodup := by
    simp [dorothea, dorotheaPipe, selection, buildKr, pipe, spyCount, mapField, writer, Net.ids, Nets.ids, Nets.ofList]
  obtain ⟨h1, h2⟩ := sliced_run 0 start stop gap true (dorotheaPipe f) hs xs (by intro x _; rw [dorothea_step]; split <;> simp_all)
  refine ⟨h1, ?_, ?_, ?_, ?_, ?_, ?_, ?_⟩
  · exact table_of_feeds_all 6 _ _ (h2 6) (by intro x; rw [feeds, dorothea_step]; cases h : selected f x <;> simp [h, KrItem.filterRow])
  · exact table_of_feeds 13 _ _ _ (h2 13) (by intro x; rw [feeds, dorothea_step]; cases h : selected f x <;> simp [h])
  · exact table_of_feeds 14 _ _ _ (h2 14) (by intro x; rw [feeds, dorothea_step]; cases h : selected f x <;> simp [h, KrItem.infoRow])
  · exact table_of_feeds 12 _ _ _ (h2 12) (by intro x; rw [feeds, dorothea_step]; cases h : selected f x <;> simp [h, KrItem.number])
  · have := count_of_feeds 2 (fun _ => true) hi (.slice (.branchSide .refl)) (h2 2) (by intro x; rw [feeds, dorothea_step]; cases h : selected f x <;> simp [h])
    rw [List.countP_true] at this
    exact this
  · exact count_of_feeds 9 _ hi (.slice (.branchDown (.mapIn (.mapIn (.branchDown (.countFilter (.branchSide .refl))))))) (h2 9)
      (by intro x; rw [feeds, dorothea_step]; cases h : selected f x <;> simp [h])
  · exact countFilter_of_feeds 7 _ _ (fun _ => true) (selected f) hi (.slice (.branchDown (.mapIn (.mapIn (.branchDown .refl))))) (h2 7)
      (by intro x; rw [feeds, dorothea_step]; cases h : selected f x <;> simp [h, gave, need])

/-- Non-vacuity: three events, the second is not selected; a range without the first. -/
def exampleSelect : Select Nat Nat (Int × Nat) where
  classify := fun p => p / 10
  passed := fun s => s == 1
  build := fun e _ p _ => (e, p)

example : table 13 KrItem.kr (push [(⟨7, 70, 15, none, none, none, none, none⟩ : KrItem Nat Nat (Int × Nat) Unit), ⟨8, 80, 25, none, none, none, none, none⟩, ⟨9, 90, 17, none, none, none, none, none⟩]
    (dorothea exampleSelect 0 none 0)) = [(7, 15), (9, 17)] := by
  rw [(dorothea_accounts exampleSelect 0 none 0 _).2.2.1]
  rfl

example : table 6 KrItem.filterRow (push [(⟨7, 70, 15, none, none, none, none, none⟩ : KrItem Nat Nat (Int × Nat) Unit), ⟨8, 80, 25, none, none, none, none, none⟩, ⟨9, 90, 17, none, none, none, none, none⟩]
    (dorothea exampleSelect 1 none 0)) = [(8, false), (9, true)] := by
  rw [(dorothea_accounts exampleSelect 1 none 0 _).2.1]
  rfl

end dorothea

section sophronia
variable {P S K H : Type} (f : Select P S K) (h : HitFns P S H)

/-- The hits of an event as they are built. -/
def madeHits (x : KrItem P S K H) : H := h.make x.event x.time x.pmap (f.classify x.pmap)

/-- The event has a hit that is not NN. -/
def hasValid (x : KrItem P S K H) : Bool := decide (h.valid (madeHits f h x) > 0)

theorem sophronia_step (x : KrItem P S K H) : step (sophroniaPipe f h) x =
    (let y : KrItem P S K H := { x with selector := some (f.classify x.pmap), passed := some (selected f x) }
     let z : KrItem P S K H := { y with kr := some (f.build x.event x.time x.pmap (f.classify x.pmap)) }
     let u : KrItem P S K H := { z with hits := some (madeHits f h x), validHits := some (hasValid f h x) }
     let v : KrItem P S K H := { u with hits := some (h.cluster (h.correct (h.merge (madeHits f h x)))) }
     if selected f x then
       if hasValid f h x then some (v, [(2, x), (6, y), (7, y), (9, y), (13, z), (23, u), (24, u), (28, v), (12, v), (14, v)])
       else some (u, [(2, x), (6, y), (7, y), (9, y), (13, z), (23, u), (24, u), (12, u), (14, u)])
     else some (y, [(2, x), (6, y), (7, y)])) := by
  cases hx : selected f x <;> cases hv : hasValid f h x <;> unfold selected at hx <;> unfold hasValid madeHits at hv <;>
  simp [sophroniaPipe, hitsBranch, selection, buildKr, pipe, spyCount, mapField, writer, need, step, steps, Nets.ofList, hx, hv, KrItem.filterRow, KrItem.infoRow, KrItem.number,
    KrItem.validRow, madeHits]

/-- **C66** sophronia, for any events, range and functions.  `Filters/s12_selector` has a row for every event of the range and `Filters/valid_hit` one for every selected event; `DST/Events`,
`Run/events` and the list of event numbers have exactly the selected events, also those without valid hits; `RECO/Events` has the hits, merged, corrected and clustered, of exactly the selected events with a
valid hit. -/
theorem sophronia_accounts (start : Nat) (stop : Option Nat) (gap : Nat) (xs : List (KrItem P S K H)) :
    (push xs (sophronia f h start stop gap)).exc = none ∧
    table 6 KrItem.filterRow (push xs (sophronia f h start stop gap)) = (pySlice start stop (gap + 1) xs).map (fun x => (x.event, selected f x)) ∧
    table 23 KrItem.validRow (push xs (sophronia f h start stop gap)) =
      ((pySlice start stop (gap + 1) xs).filter (selected f)).map (fun x => (x.event, hasValid f h x)) ∧
    table 28 KrItem.hits (push xs (sophronia f h start stop gap)) =
      ((pySlice start stop (gap + 1) xs).filter (fun x => selected f x && hasValid f h x)).map (fun x => h.cluster (h.correct (h.merge (madeHits f h x)))) ∧
    table 13 KrItem.kr (push xs (sophronia f h start stop gap)) =
      ((pySlice start stop (gap + 1) xs).filter (selected f)).map (fun x => f.build x.event x.time x.pmap (f.classify x.pmap)) ∧
    table 14 KrItem.infoRow (push xs (sophronia f h start stop gap)) = ((pySlice start stop (gap + 1) xs).filter (selected f)).map (fun x => (x.event, x.time)) ∧
    table 12 KrItem.number (push xs (sophronia f h start stop gap)) = ((pySlice start stop (gap + 1) xs).filter (selected f)).map (fun x => x.event) ∧
    futures 2 (push xs (sophronia f h start stop gap)) = [.num (pySlice start stop (gap + 1) xs).length] ∧
    futures 9 (push xs (sophronia f h start stop gap)) = [.num ((pySlice start stop (gap + 1) xs).countP (selected f))] ∧
    futures 7 (push xs (sophronia f h start stop gap)) =
      [.passedFailed ((pySlice start stop (gap + 1) xs).countP (selected f)) ((pySlice start stop (gap + 1) xs).countP (fun x => !selected f x))] := by
  have hs : (sophroniaPipe f h).Sums := by
    simp [sophroniaPipe, hitsBranch, selection, buildKr, pipe, spyCount, mapField, writer, Net.Sums, Nets.Sums, Nets.ofList]
  have hi : (sophronia f h start stop gap).ids.Nodup := by
    simp [sophronia, sophroniaPipe, hitsBranch, selection, buildKr, pipe, spyCount, mapField, writer, Net.ids, Nets.ids, Nets.ofList]
  have hstep := sophronia_step f h
  obtain ⟨h1, h2⟩ := sliced_run 0 start stop gap true (sophroniaPipe f h) hs xs (by
    intro x _; rw [hstep]; cases hx : selected f x <;> cases hv : hasValid f h x <;> simp)
  refine ⟨h1, ?_, ?_, ?_, ?_, ?_, ?_, ?_, ?_, ?_⟩
  · exact table_of_feeds_all 6 _ _ (h2 6) (by intro x; rw [feeds, hstep]; cases hx : selected f x <;> cases hv : hasValid f h x <;> simp [KrItem.filterRow])
  · exact table_of_feeds 23 _ _ _ (h2 23) (by intro x; rw [feeds, hstep]; cases hx : selected f x <;> cases hv : hasValid f h x <;> simp [KrItem.validRow])
  · exact table_of_feeds 28 _ _ _ (h2 28) (by intro x; rw [feeds, hstep]; cases hx : selected f x <;> cases hv : hasValid f h x <;> simp)
  · exact table_of_feeds 13 _ _ _ (h2 13) (by intro x; rw [feeds, hstep]; cases hx : selected f x <;> cases hv : hasValid f h x <;> simp)
  · exact table_of_feeds 14 _ _ _ (h2 14) (by intro x; rw [feeds, hstep]; cases hx : selected f x <;> cases hv : hasValid f h x <;> simp [KrItem.infoRow])
  · exact table_of_feeds 12 _ _ _ (h2 12) (by intro x; rw [feeds, hstep]; cases hx : selected f x <;> cases hv : hasValid f h x <;> simp [KrItem.number])
  · have := count_of_feeds 2 (fun _ => true) hi (.slice (.branchSide .refl)) (h2 2) (by
      intro x; rw [feeds, hstep]; cases hx : selected f x <;> cases hv : hasValid f h x <;> simp)
    rw [List.countP_true] at this
    exact this
  · exact count_of_feeds 9 _ hi (.slice (.branchDown (.mapIn (.mapIn (.branchDown (.countFilter (.branchSide .refl))))))) (h2 9)
      (by intro x; rw [feeds, hstep]; cases hx : selected f x <;> cases hv : hasValid f h x <;> simp)
  · exact countFilter_of_feeds 7 _ _ (fun _ => true) (selected f) hi (.slice (.branchDown (.mapIn (.mapIn (.branchDown .refl))))) (h2 7)
      (by intro x; rw [feeds, hstep]; cases hx : selected f x <;> cases hv : hasValid f h x <;> simp [gave, need])

/-- Non-vacuity: of three events the first has valid hits, the second is not selected, the third is selected and has none. -/
def exampleHits : HitFns Nat Nat Nat where
  make := fun _ _ p s => p + s
  valid := fun n => n % 2
  merge := fun n => n + 100
  correct := fun n => 2 * n
  cluster := fun n => n

example : table 28 KrItem.hits (push [(⟨7, 70, 16, none, none, none, none, none⟩ : KrItem Nat Nat (Int × Nat) Nat), ⟨8, 80, 25, none, none, none, none, none⟩, ⟨9, 90, 17, none, none, none, none, none⟩]
    (sophronia exampleSelect exampleHits 0 none 0)) = [234] ∧
    table 12 KrItem.number (push [(⟨7, 70, 16, none, none, none, none, none⟩ : KrItem Nat Nat (Int × Nat) Nat), ⟨8, 80, 25, none, none, none, none, none⟩, ⟨9, 90, 17, none, none, none, none, none⟩]
    (sophronia exampleSelect exampleHits 0 none 0)) = [7, 9] := by
  constructor
  · rw [(sophronia_accounts exampleSelect exampleHits 0 none 0 _).2.2.2.1]; rfl
  · rw [(sophronia_accounts exampleSelect exampleHits 0 none 0 _).2.2.2.2.2.2.1]; rfl

end sophronia
end Verif.Cities
