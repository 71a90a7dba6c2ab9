import Verif.Props.Cities
/-!
# Accounting of events in beersheba
-/
namespace Verif.Cities
open Verif.Dataflow

section beersheba
variable {H D K : Type} (f : DecoFns H D)

/-- The hits above threshold. -/
def aboveThreshold (x : DecoItem H D K) : H := f.threshold (f.correct x.hits)

/-- The hits that are deconvolved. -/
def kept (x : DecoItem H D K) : H := f.drop (f.cut (aboveThreshold f x))

/-- There are hits to deconvolve. -/
def nonempty (x : DecoItem H D K) : Bool := decide (f.size (kept f x) > 0)

/-- The deconvolved hits, with the time of the event. -/
def deconvolved (x : DecoItem H D K) : D := f.addInfo x.time (f.deconvolve (kept f x))

theorem beersheba_step (x : DecoItem H D K) : step (beershebaPipe f) x =
    (let y : DecoItem H D K := { x with hits := aboveThreshold f x }
     let z : DecoItem H D K := { x with hits := kept f x, passed := some (nonempty f x) }
     let u : DecoItem H D K := { z with deco := some (deconvolved f x) }
     if nonempty f x then
       if x.kdst.isSome then some (u, [(2, x), (6, y), (11, z), (12, z), (16, u), (18, u), (20, u), (22, u), (23, u)])
       else some (u, [(2, x), (6, y), (11, z), (12, z), (16, u), (18, u), (20, u), (23, u)])
     else some (z, [(2, x), (6, y), (11, z), (12, z)])) := by
  cases hx : nonempty f x <;> cases hk : x.kdst <;> unfold nonempty kept aboveThreshold at hx <;>
  simp [beershebaPipe, pipe, spyCount, mapField, writer, filterSome, need, step, steps, Nets.ofList, hx, hk, DecoItem.filterRow, DecoItem.infoRow, DecoItem.number, DecoItem.hitsRow,
    deconvolved, kept, aboveThreshold]

/-- **C67** beersheba, for any events, range and functions.  `CHITS/lowTh` has the hits above threshold of every event of the range and `Filters/nohits` a row for every event; `DECO/Events`,
`Run/events` and the list of event numbers have exactly the events with hits left after the cuts, in order; `DST/Events` has the kdst of exactly those that have one; the counters agree. -/
theorem beersheba_accounts (start : Nat) (stop : Option Nat) (gap : Nat) (xs : List (DecoItem H D K)) :
    (push xs (beersheba f start stop gap)).exc = none ∧
    table 6 DecoItem.hitsRow (push xs (beersheba f start stop gap)) = (pySlice start stop (gap + 1) xs).map (aboveThreshold f) ∧
    table 11 DecoItem.filterRow (push xs (beersheba f start stop gap)) = (pySlice start stop (gap + 1) xs).map (fun x => (x.event, nonempty f x)) ∧
    table 20 DecoItem.deco (push xs (beersheba f start stop gap)) = ((pySlice start stop (gap + 1) xs).filter (nonempty f)).map (deconvolved f) ∧
    table 22 DecoItem.kdst (push xs (beersheba f start stop gap)) = (pySlice start stop (gap + 1) xs).filterMap (fun x => if nonempty f x then x.kdst else none) ∧
    table 23 DecoItem.infoRow (push xs (beersheba f start stop gap)) = ((pySlice start stop (gap + 1) xs).filter (nonempty f)).map (fun x => (x.event, x.time)) ∧
    table 18 DecoItem.number (push xs (beersheba f start stop gap)) = ((pySlice start stop (gap + 1) xs).filter (nonempty f)).map (fun x => x.event) ∧
    futures 2 (push xs (beersheba f start stop gap)) = [.num (pySlice start stop (gap + 1) xs).length] ∧
    futures 16 (push xs (beersheba f start stop gap)) = [.num ((pySlice start stop (gap + 1) xs).countP (nonempty f))] ∧
    futures 12 (push xs (beersheba f start stop gap)) = [.passedFailed ((pySlice start stop (gap + 1) xs).countP (nonempty f)) ((pySlice start stop (gap + 1) xs).countP (fun x => !nonempty f x))] := by
  have hs : (beershebaPipe (K := K) f).Sums := by
    simp [beershebaPipe, pipe, spyCount, mapField, writer, filterSome, Net.Sums, Nets.Sums, Nets.ofList]
  have hi : (beersheba (K := K) f start stop gap).ids.Nodup := by
    simp [beersheba, beershebaPipe, pipe, spyCount, mapField, writer, filterSome, Net.ids, Nets.ids, Nets.ofList]
  have hstep := beersheba_step f (K := K)
  obtain ⟨h1, h2⟩ := sliced_run 0 start stop gap true (beershebaPipe f) hs xs (by intro x _; rw [hstep]; cases c0 : nonempty f x <;> cases c1 : x.kdst <;> simp [*])
  refine ⟨h1, ?_, ?_, ?_, ?_, ?_, ?_, ?_, ?_, ?_⟩
  · exact table_of_feeds_all 6 _ _ (h2 6) (by intro x; rw [feeds, hstep]; cases c0 : nonempty f x <;> cases c1 : x.kdst <;> simp [*, DecoItem.hitsRow])
  · exact table_of_feeds_all 11 _ _ (h2 11) (by intro x; rw [feeds, hstep]; cases c0 : nonempty f x <;> cases c1 : x.kdst <;> simp [*, DecoItem.filterRow])
  · exact table_of_feeds 20 _ _ _ (h2 20) (by intro x; rw [feeds, hstep]; cases c0 : nonempty f x <;> cases c1 : x.kdst <;> simp [*])
  · exact table_of_feeds_opt 22 _ _ (h2 22) (by intro x; rw [feeds, hstep]; cases c0 : nonempty f x <;> cases c1 : x.kdst <;> simp [*])
  · exact table_of_feeds 23 _ _ _ (h2 23) (by intro x; rw [feeds, hstep]; cases c0 : nonempty f x <;> cases c1 : x.kdst <;> simp [*, DecoItem.infoRow])
  · exact table_of_feeds 18 _ _ _ (h2 18) (by intro x; rw [feeds, hstep]; cases c0 : nonempty f x <;> cases c1 : x.kdst <;> simp [*, DecoItem.number])
  · have := count_of_feeds 2 (fun _ => true) hi (.slice (.branchSide .refl)) (h2 2) (by intro x; rw [feeds, hstep]; cases c0 : nonempty f x <;> cases c1 : x.kdst <;> simp [*])
    rw [List.countP_true] at this
    exact this
  · exact count_of_feeds 16 _ hi (.slice (.branchDown (.mapIn (.mapIn (.branchDown (.mapIn (.mapIn (.mapIn (.branchDown (.countFilter (.mapIn (.mapIn (.branchSide .refl))))))))))))) (h2 16) (by intro x; rw [feeds, hstep]; cases c0 : nonempty f x <;> cases c1 : x.kdst <;> simp [*])
  · exact countFilter_of_feeds 12 _ _ (fun _ => true) (nonempty f) hi (.slice (.branchDown (.mapIn (.mapIn (.branchDown (.mapIn (.mapIn (.mapIn (.branchDown .refl))))))))) (h2 12) (by intro x; rw [feeds, hstep]; cases c0 : nonempty f x <;> cases c1 : x.kdst <;> simp [*, gave, need])

/-- Non-vacuity: three events; the second has nothing left after the cuts, the third has no kdst. -/
def exampleDeco : DecoFns (List Nat) Nat where
  correct := fun h => h.map (2 * ·)
  threshold := fun h => h.filter (5 < ·)
  cut := fun h => h.filter (9 < ·)
  drop := fun h => h
  size := fun h => h.length
  deconvolve := fun h => h.sum
  addInfo := fun _ d => d

example : table 20 DecoItem.deco (push [(⟨1, 0, [3, 6, 7], some 5, none, none⟩ : DecoItem (List Nat) Nat Nat), ⟨2, 0, [4], some 6, none, none⟩, ⟨3, 0, [10], none, none, none⟩]
      (beersheba exampleDeco 0 none 0)) = [26, 20] ∧
    table 22 DecoItem.kdst (push [(⟨1, 0, [3, 6, 7], some 5, none, none⟩ : DecoItem (List Nat) Nat Nat), ⟨2, 0, [4], some 6, none, none⟩, ⟨3, 0, [10], none, none, none⟩]
      (beersheba exampleDeco 0 none 0)) = [5] ∧
    table 6 DecoItem.hitsRow (push [(⟨1, 0, [3, 6, 7], some 5, none, none⟩ : DecoItem (List Nat) Nat Nat), ⟨2, 0, [4], some 6, none, none⟩, ⟨3, 0, [10], none, none, none⟩]
      (beersheba exampleDeco 0 none 0)) = [[6, 12, 14], [8], [20]] := by
  refine ⟨?_, ?_, ?_⟩
  · rw [(beersheba_accounts exampleDeco 0 none 0 _).2.2.2.1]; rfl
  · rw [(beersheba_accounts exampleDeco 0 none 0 _).2.2.2.2.1]; rfl
  · rw [(beersheba_accounts exampleDeco 0 none 0 _).2.1]; rfl

end beersheba
end Verif.Cities
