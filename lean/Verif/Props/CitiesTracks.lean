import Verif.Props.Cities
/-!
# Accounting of events in esmeralda and isaura
-/
namespace Verif.Cities
open Verif.Dataflow

section tracks
variable {H T U K : Type} (f : TrackFns H T U)

/-- What the tracks of the hits `h` are. -/
def trackResult (h : H) : T × H × Bool := f.tracks (f.copyE h)

/-- There are hits. -/
def anyHits (h : H) : Bool := decide (f.size h > 0)

/-- There are tracks. -/
def anyTracks (h : H) : Bool := decide (f.ntracks (trackResult f h).1 > 0)

/-- The hits that are written. -/
def sortedHits (h : H) : H := f.sort (trackResult f h).2.1

/-- The summary of the event. -/
def summaryOf (e : Int) (h : H) : U := f.summary e (trackResult f h).1 (sortedHits f h) (trackResult f h).2.2

/-- The deliveries of `compute_and_write_tracks_info`. -/
theorem tracks_step (x : TrackItem H T U K) : step (tracksPipe f) x =
    (let y : TrackItem H T U K := { x with hitsPassed := some (anyHits f x.hits) }
     let z : TrackItem H T U K := { y with epHits := some (f.copyE x.hits), topology := some (trackResult f x.hits).1, paolina := some (sortedHits f x.hits),
                                           outOfMap := some (trackResult f x.hits).2.2, topologyPassed := some (anyTracks f x.hits), info := some (summaryOf f x.event x.hits) }
     let w : TrackItem H T U K := { z with paolina := some (f.change (sortedHits f x.hits)) }
     if anyHits f x.hits then
       if anyTracks f x.hits then some (z, [(32, y), (33, y), (40, z), (41, z), (43, w), (44, z), (45, z)])
       else some (z, [(32, y), (33, y), (40, z), (41, z), (43, w), (44, z)])
     else some (y, [(32, y), (33, y)])) := by
  cases hx : anyHits f x.hits <;> cases ht : anyTracks f x.hits <;> unfold anyHits at hx <;> unfold anyTracks trackResult at ht <;>
  simp [tracksPipe, pipe, mapField, writer, need, step, steps, Nets.ofList, hx, ht, TrackItem.hitsRow, TrackItem.topologyRow, TrackItem.summaryArgs, summaryOf, sortedHits, trackResult]

/-- The hits of an event of esmeralda after the corrections, the fiducial cut and the threshold. -/
def finalHits (correct drop threshold : H → H) (x : TrackItem H T U K) : H := threshold (drop (correct x.hits))

theorem esmeralda_step (correct drop threshold : H → H) (x : TrackItem H T U K) : step (esmeraldaPipe correct drop threshold f) x =
    (match step (tracksPipe f) { x with hits := finalHits correct drop threshold x } with
      | none => none
      | some r => some (r.1, (2, x) :: r.2 ++ [(7, r.1), (8, r.1), (10, r.1), (11, r.1)])) := by
  rw [tracks_step]
  cases hx : anyHits f (finalHits correct drop threshold x) <;> cases ht : anyTracks f (finalHits correct drop threshold x) <;>
  simp [esmeraldaPipe, pipe, spyCount, mapField, writer, step, steps, Nets.ofList, tracks_step, hx, ht, TrackItem.kdstArg, TrackItem.infoRow, TrackItem.number] <;>
  simp [finalHits] at hx ht ⊢ <;> simp [hx, ht]

/-- **C68** esmeralda, for any events, range and functions.  Every event of the range is in `Run/events`, in the list of event numbers and in the table of the filter of hits, and its kdst is handed to the writer;
the summary, the hits and `Filters/topology_select` have exactly the events with hits; the tracks those that have tracks; events in and out are the events of the range. -/
theorem esmeralda_accounts (correct drop threshold : H → H) (start : Nat) (stop : Option Nat) (gap : Nat) (xs : List (TrackItem H T U K)) :
    (push xs (esmeralda correct drop threshold f start stop gap)).exc = none ∧
    table 32 TrackItem.hitsRow (push xs (esmeralda correct drop threshold f start stop gap)) = (pySlice start stop (gap + 1) xs).map (fun x => (x.event, anyHits f (finalHits correct drop threshold x))) ∧
    table 40 TrackItem.info (push xs (esmeralda correct drop threshold f start stop gap)) = ((pySlice start stop (gap + 1) xs).filter (fun x => anyHits f (finalHits correct drop threshold x))).map (fun x => summaryOf f x.event (finalHits correct drop threshold x)) ∧
    table 41 TrackItem.topologyRow (push xs (esmeralda correct drop threshold f start stop gap)) = ((pySlice start stop (gap + 1) xs).filter (fun x => anyHits f (finalHits correct drop threshold x))).map (fun x => (x.event, anyTracks f (finalHits correct drop threshold x))) ∧
    table 43 TrackItem.paolina (push xs (esmeralda correct drop threshold f start stop gap)) = ((pySlice start stop (gap + 1) xs).filter (fun x => anyHits f (finalHits correct drop threshold x))).map (fun x => f.change (sortedHits f (finalHits correct drop threshold x))) ∧
    table 45 TrackItem.topology (push xs (esmeralda correct drop threshold f start stop gap)) = ((pySlice start stop (gap + 1) xs).filter (fun x => anyHits f (finalHits correct drop threshold x) && anyTracks f (finalHits correct drop threshold x))).map (fun x => (trackResult f (finalHits correct drop threshold x)).1) ∧
    table 7 TrackItem.kdstArg (push xs (esmeralda correct drop threshold f start stop gap)) = (pySlice start stop (gap + 1) xs).map (fun x => x.kdst) ∧
    table 8 TrackItem.infoRow (push xs (esmeralda correct drop threshold f start stop gap)) = (pySlice start stop (gap + 1) xs).map (fun x => (x.event, x.time)) ∧
    table 10 TrackItem.number (push xs (esmeralda correct drop threshold f start stop gap)) = (pySlice start stop (gap + 1) xs).map (fun x => x.event) ∧
    futures 2 (push xs (esmeralda correct drop threshold f start stop gap)) = [.num (pySlice start stop (gap + 1) xs).length] ∧
    futures 11 (push xs (esmeralda correct drop threshold f start stop gap)) = [.num (pySlice start stop (gap + 1) xs).length] := by
  have hs : (esmeraldaPipe (K := K) correct drop threshold f).Sums := by
    simp [esmeraldaPipe, tracksPipe, pipe, spyCount, mapField, writer, filterSome, Net.Sums, Nets.Sums, Nets.ofList]
  have hi : (esmeralda (K := K) correct drop threshold f start stop gap).ids.Nodup := by
    simp [esmeralda, esmeraldaPipe, tracksPipe, pipe, spyCount, mapField, writer, filterSome, Net.ids, Nets.ids, Nets.ofList]
  have hstep := esmeralda_step f (K := K) correct drop threshold
  obtain ⟨h1, h2⟩ := sliced_run 0 start stop gap true (esmeraldaPipe correct drop threshold f) hs xs (by intro x _; rw [hstep, tracks_step]; cases c0 : anyHits f (finalHits correct drop threshold x) <;> cases c1 : anyTracks f (finalHits correct drop threshold x) <;> simp [*])
  refine ⟨h1, ?_, ?_, ?_, ?_, ?_, ?_, ?_, ?_, ?_, ?_⟩
  · exact table_of_feeds_all 32 _ _ (h2 32) (by intro x; rw [feeds, hstep, tracks_step]; cases c0 : anyHits f (finalHits correct drop threshold x) <;> cases c1 : anyTracks f (finalHits correct drop threshold x) <;> simp [*, TrackItem.hitsRow])
  · exact table_of_feeds 40 _ _ _ (h2 40) (by intro x; rw [feeds, hstep, tracks_step]; cases c0 : anyHits f (finalHits correct drop threshold x) <;> cases c1 : anyTracks f (finalHits correct drop threshold x) <;> simp [*])
  · exact table_of_feeds 41 _ _ _ (h2 41) (by intro x; rw [feeds, hstep, tracks_step]; cases c0 : anyHits f (finalHits correct drop threshold x) <;> cases c1 : anyTracks f (finalHits correct drop threshold x) <;> simp [*, TrackItem.topologyRow])
  · exact table_of_feeds 43 _ _ _ (h2 43) (by intro x; rw [feeds, hstep, tracks_step]; cases c0 : anyHits f (finalHits correct drop threshold x) <;> cases c1 : anyTracks f (finalHits correct drop threshold x) <;> simp [*])
  · exact table_of_feeds 45 _ _ _ (h2 45) (by intro x; rw [feeds, hstep, tracks_step]; cases c0 : anyHits f (finalHits correct drop threshold x) <;> cases c1 : anyTracks f (finalHits correct drop threshold x) <;> simp [*])
  · exact table_of_feeds_all 7 _ _ (h2 7) (by intro x; rw [feeds, hstep, tracks_step]; cases c0 : anyHits f (finalHits correct drop threshold x) <;> cases c1 : anyTracks f (finalHits correct drop threshold x) <;> simp [*, TrackItem.kdstArg])
  · exact table_of_feeds_all 8 _ _ (h2 8) (by intro x; rw [feeds, hstep, tracks_step]; cases c0 : anyHits f (finalHits correct drop threshold x) <;> cases c1 : anyTracks f (finalHits correct drop threshold x) <;> simp [*, TrackItem.infoRow])
  · exact table_of_feeds_all 10 _ _ (h2 10) (by intro x; rw [feeds, hstep, tracks_step]; cases c0 : anyHits f (finalHits correct drop threshold x) <;> cases c1 : anyTracks f (finalHits correct drop threshold x) <;> simp [*, TrackItem.number])
  · have := count_of_feeds 2 (fun _ => true) hi (.slice (.branchSide .refl)) (h2 2) (by intro x; rw [feeds, hstep, tracks_step]; cases c0 : anyHits f (finalHits correct drop threshold x) <;> cases c1 : anyTracks f (finalHits correct drop threshold x) <;> simp [*])
    rw [List.countP_true] at this
    exact this
  · have := count_of_feeds 11 (fun _ => true) hi (.slice (.branchDown (.mapIn (.mapIn (.mapIn (.fork (.tail (.tail (.tail .head))) (.fork (.tail .head) .refl))))))) (h2 11) (by intro x; rw [feeds, hstep, tracks_step]; cases c0 : anyHits f (finalHits correct drop threshold x) <;> cases c1 : anyTracks f (finalHits correct drop threshold x) <;> simp [*])
    rw [List.countP_true] at this
    exact this

theorem isaura_step (x : TrackItem H T U K) : step (isauraPipe f) x =
    (match step (tracksPipe f) x with
      | none => none
      | some r => some (r.1, (2, x) :: (4, x) :: (6, x) :: r.2 ++ (8, r.1) :: (if x.kdst.isSome then [(10, r.1)] else []))) := by
  rw [tracks_step]
  cases hx : anyHits f x.hits <;> cases ht : anyTracks f x.hits <;> cases hk : x.kdst <;>
  simp [isauraPipe, pipe, spyCount, mapField, writer, filterSome, step, steps, Nets.ofList, tracks_step, hx, ht, hk, TrackItem.infoRow, TrackItem.number]

/-- **C68** isaura, for any events, range and functions.  Every event of the range is in `Run/events`, in the list of event numbers and in the table of the filter of hits; the summary, the hits and
`Filters/topology_select` have exactly the events with hits; the tracks those that have tracks; `DST/Events` the kdst of the events that have one; events in and out are the events of the range. -/
theorem isaura_accounts (start : Nat) (stop : Option Nat) (gap : Nat) (xs : List (TrackItem H T U K)) :
    (push xs (isaura f start stop gap)).exc = none ∧
    table 32 TrackItem.hitsRow (push xs (isaura f start stop gap)) = (pySlice start stop (gap + 1) xs).map (fun x => (x.event, anyHits f x.hits)) ∧
    table 40 TrackItem.info (push xs (isaura f start stop gap)) = ((pySlice start stop (gap + 1) xs).filter (fun x => anyHits f x.hits)).map (fun x => summaryOf f x.event x.hits) ∧
    table 41 TrackItem.topologyRow (push xs (isaura f start stop gap)) = ((pySlice start stop (gap + 1) xs).filter (fun x => anyHits f x.hits)).map (fun x => (x.event, anyTracks f x.hits)) ∧
    table 43 TrackItem.paolina (push xs (isaura f start stop gap)) = ((pySlice start stop (gap + 1) xs).filter (fun x => anyHits f x.hits)).map (fun x => f.change (sortedHits f x.hits)) ∧
    table 45 TrackItem.topology (push xs (isaura f start stop gap)) = ((pySlice start stop (gap + 1) xs).filter (fun x => anyHits f x.hits && anyTracks f x.hits)).map (fun x => (trackResult f x.hits).1) ∧
    table 10 TrackItem.kdst (push xs (isaura f start stop gap)) = (pySlice start stop (gap + 1) xs).filterMap (fun x => x.kdst) ∧
    table 8 TrackItem.infoRow (push xs (isaura f start stop gap)) = (pySlice start stop (gap + 1) xs).map (fun x => (x.event, x.time)) ∧
    table 4 TrackItem.number (push xs (isaura f start stop gap)) = (pySlice start stop (gap + 1) xs).map (fun x => x.event) ∧
    futures 2 (push xs (isaura f start stop gap)) = [.num (pySlice start stop (gap + 1) xs).length] ∧
    futures 6 (push xs (isaura f start stop gap)) = [.num (pySlice start stop (gap + 1) xs).length] := by
  have hs : (isauraPipe (K := K) f).Sums := by
    simp [isauraPipe, tracksPipe, pipe, spyCount, mapField, writer, filterSome, Net.Sums, Nets.Sums, Nets.ofList]
  have hi : (isaura (K := K) f start stop gap).ids.Nodup := by
    simp [isaura, isauraPipe, tracksPipe, pipe, spyCount, mapField, writer, filterSome, Net.ids, Nets.ids, Nets.ofList]
  have hstep := isaura_step f (K := K)
  obtain ⟨h1, h2⟩ := sliced_run 0 start stop gap true (isauraPipe f) hs xs (by intro x _; rw [hstep, tracks_step]; cases c0 : anyHits f x.hits <;> cases c1 : anyTracks f x.hits <;> cases c2 : x.kdst <;> simp [*])
  refine ⟨h1, ?_, ?_, ?_, ?_, ?_, ?_, ?_, ?_, ?_, ?_⟩
  · exact table_of_feeds_all 32 _ _ (h2 32) (by intro x; rw [feeds, hstep, tracks_step]; cases c0 : anyHits f x.hits <;> cases c1 : anyTracks f x.hits <;> cases c2 : x.kdst <;> simp [*, TrackItem.hitsRow])
  · exact table_of_feeds 40 _ _ _ (h2 40) (by intro x; rw [feeds, hstep, tracks_step]; cases c0 : anyHits f x.hits <;> cases c1 : anyTracks f x.hits <;> cases c2 : x.kdst <;> simp [*])
  · exact table_of_feeds 41 _ _ _ (h2 41) (by intro x; rw [feeds, hstep, tracks_step]; cases c0 : anyHits f x.hits <;> cases c1 : anyTracks f x.hits <;> cases c2 : x.kdst <;> simp [*, TrackItem.topologyRow])
  · exact table_of_feeds 43 _ _ _ (h2 43) (by intro x; rw [feeds, hstep, tracks_step]; cases c0 : anyHits f x.hits <;> cases c1 : anyTracks f x.hits <;> cases c2 : x.kdst <;> simp [*])
  · exact table_of_feeds 45 _ _ _ (h2 45) (by intro x; rw [feeds, hstep, tracks_step]; cases c0 : anyHits f x.hits <;> cases c1 : anyTracks f x.hits <;> cases c2 : x.kdst <;> simp [*])
  · exact table_of_feeds_opt 10 _ _ (h2 10) (by intro x; rw [feeds, hstep, tracks_step]; cases c0 : anyHits f x.hits <;> cases c1 : anyTracks f x.hits <;> cases c2 : x.kdst <;> simp [*])
  · exact table_of_feeds_all 8 _ _ (h2 8) (by intro x; rw [feeds, hstep, tracks_step]; cases c0 : anyHits f x.hits <;> cases c1 : anyTracks f x.hits <;> cases c2 : x.kdst <;> simp [*, TrackItem.infoRow])
  · exact table_of_feeds_all 4 _ _ (h2 4) (by intro x; rw [feeds, hstep, tracks_step]; cases c0 : anyHits f x.hits <;> cases c1 : anyTracks f x.hits <;> cases c2 : x.kdst <;> simp [*, TrackItem.number])
  · have := count_of_feeds 2 (fun _ => true) hi (.slice (.branchSide .refl)) (h2 2) (by intro x; rw [feeds, hstep, tracks_step]; cases c0 : anyHits f x.hits <;> cases c1 : anyTracks f x.hits <;> cases c2 : x.kdst <;> simp [*])
    rw [List.countP_true] at this
    exact this
  · have := count_of_feeds 6 (fun _ => true) hi (.slice (.branchDown (.branchDown (.branchSide .refl)))) (h2 6) (by intro x; rw [feeds, hstep, tracks_step]; cases c0 : anyHits f x.hits <;> cases c1 : anyTracks f x.hits <;> cases c2 : x.kdst <;> simp [*])
    rw [List.countP_true] at this
    exact this

/-- Non-vacuity: three events; the second has no hits, the third no tracks and no kdst. -/
def exampleTracks : TrackFns (List Nat) (List Nat) Nat where
  size := fun h => h.length
  copyE := fun h => h
  tracks := fun h => (h.filter (4 < ·), h, false)
  sort := fun h => h.reverse
  ntracks := fun t => t.length
  summary := fun _ t h _ => t.length + h.length
  change := fun h => h

example : table 43 TrackItem.paolina (push [(⟨1, 0, [3, 6], some 5, none, none, none, none, none, none, none⟩ : TrackItem (List Nat) (List Nat) Nat Nat), ⟨2, 0, [], some 6, none, none, none, none, none, none, none⟩, ⟨3, 0, [1], none, none, none, none, none, none, none, none⟩] (isaura exampleTracks 0 none 0)) = [[6, 3], [1]] ∧
    table 45 TrackItem.topology (push [(⟨1, 0, [3, 6], some 5, none, none, none, none, none, none, none⟩ : TrackItem (List Nat) (List Nat) Nat Nat), ⟨2, 0, [], some 6, none, none, none, none, none, none, none⟩, ⟨3, 0, [1], none, none, none, none, none, none, none, none⟩] (isaura exampleTracks 0 none 0)) = [[6]] ∧
    table 10 TrackItem.kdst (push [(⟨1, 0, [3, 6], some 5, none, none, none, none, none, none, none⟩ : TrackItem (List Nat) (List Nat) Nat Nat), ⟨2, 0, [], some 6, none, none, none, none, none, none, none⟩, ⟨3, 0, [1], none, none, none, none, none, none, none, none⟩] (isaura exampleTracks 0 none 0)) = [5, 6] ∧
    table 41 TrackItem.topologyRow (push [(⟨1, 0, [3, 6], some 5, none, none, none, none, none, none, none⟩ : TrackItem (List Nat) (List Nat) Nat Nat), ⟨2, 0, [], some 6, none, none, none, none, none, none, none⟩, ⟨3, 0, [1], none, none, none, none, none, none, none, none⟩] (esmeralda (fun h => h) (fun h => h.filter (1 < ·)) (fun h => h) exampleTracks 0 none 0)) = [(1, true)] ∧
    table 10 TrackItem.number (push [(⟨1, 0, [3, 6], some 5, none, none, none, none, none, none, none⟩ : TrackItem (List Nat) (List Nat) Nat Nat), ⟨2, 0, [], some 6, none, none, none, none, none, none, none⟩, ⟨3, 0, [1], none, none, none, none, none, none, none, none⟩] (esmeralda (fun h => h) (fun h => h.filter (1 < ·)) (fun h => h) exampleTracks 0 none 0)) = [1, 2, 3] := by
  refine ⟨?_, ?_, ?_, ?_, ?_⟩
  · rw [(isaura_accounts exampleTracks 0 none 0 _).2.2.2.2.1]; rfl
  · rw [(isaura_accounts exampleTracks 0 none 0 _).2.2.2.2.2.1]; rfl
  · rw [(isaura_accounts exampleTracks 0 none 0 _).2.2.2.2.2.2.1]; rfl
  · rw [(esmeralda_accounts exampleTracks _ _ _ 0 none 0 _).2.2.2.1]; rfl
  · rw [(esmeralda_accounts exampleTracks _ _ _ 0 none 0 _).2.2.2.2.2.2.2.2.1]; rfl

end tracks
end Verif.Cities
