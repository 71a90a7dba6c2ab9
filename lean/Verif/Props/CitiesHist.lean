import Verif.Props.Cities
import Verif.Props.Calib
/-!
# The calibration cities (phyllis, trude, berenice): the histograms are the sums over the events of the range
-/
namespace Verif.Cities
open Verif.Dataflow

variable {W : Type}

/-- An event as the source gives it: number, timestamp, waveforms. -/
def calEvent (e : Int × Int × W) : CalVal W := .event e.1 e.2.1 e.2.2 none

theorem zipIdx_map' {α β : Type} (f : α → β) : ∀ (xs : List α) (n : Nat), (xs.map f).zipIdx n = (xs.zipIdx n).map fun p => (f p.1, p.2) := by
  intro xs
  induction xs with
  | nil => intro n; rfl
  | cons x xs ih => intro n; simp [ih]

theorem pySlice_map {α β : Type} (f : α → β) (a : Nat) (b : Option Nat) (k : Nat) (xs : List α) : Dataflow.pySlice a b k (xs.map f) = (Dataflow.pySlice a b k xs).map f := by
  unfold Dataflow.pySlice
  rw [zipIdx_map', List.filter_map, List.map_map, List.map_map]
  congr 1

theorem foldUpd_add : ∀ (hs : List (List (List Nat))) (a : List (List Nat)),
    foldUpd (fun (a x : CalVal W) => .ok (a.add x)) (.hist a) (hs.map .hist) = .hist (hs.foldl (fun acc h => List.zipWith (List.zipWith (· + ·)) acc h) a) := by
  intro hs
  induction hs with
  | nil => intro a; rfl
  | cons h hs ih => intro a; exact ih _

/-- The future of one of the sums. -/
theorem sum_of_feeds {m n : Net (CalVal W)} {es xs : List (CalVal W)} (i nsensors nbins : Nat) (g : CalVal W → List (List Nat)) (hn : m.ids.Nodup)
    (hp : Part (.reduce i (fun a x => .ok (a.add x)) (.hist (zeros nsensors nbins))) m) (h : received i (push xs m).trace = es.flatMap (feeds i n))
    (hf : ∀ x ∈ es, feeds i n x = [.hist (g x)]) :
    futures i (push xs m) = [.val (.hist (Calib.sumHistograms nsensors nbins (es.map g)))] := by
  have he : es.flatMap (feeds i n) = (es.map g).map .hist := by
    clear h
    induction es with
    | nil => rfl
    | cons x es ih =>
      rw [List.flatMap_cons, ih fun y hy => hf y (List.mem_cons_of_mem _ hy), hf x List.mem_cons_self]
      rfl
  rw [futures, reduce_future m hn i _ _ hp xs, h, he, foldUpd_add]
  rfl

/-- The future of a counter of all the events. -/
theorem count_all {α : Type} {es : List α} {m n : Net α} {xs : List α} (i : Nat) (hn : m.ids.Nodup) (hp : Part (.count i) m)
    (h : received i (push xs m).trace = es.flatMap (feeds i n)) (hf : ∀ x ∈ es, (feeds i n x).length = 1) :
    futures i (push xs m) = [.num es.length] := by
  rw [futures, count_future m hn i hp xs, h, List.length_flatMap]
  clear h
  congr 2
  induction es with
  | nil => rfl
  | cons x es ih =>
    rw [List.map_cons, List.sum_cons, ih fun y hy => hf y (List.mem_cons_of_mem _ hy), hf x List.mem_cons_self, List.length_cons]
    omega

/-- The processed waveforms of what travels in the pipe. -/
def histOf (f : W → List (List Nat)) : CalVal W → List (List Nat)
  | .event _ _ w _ => f w
  | _ => []

theorem lightDark_step (process light dark : W → W) (bin : W → List (List Nat)) (ns nb : Nat) (e : Int × Int × W) :
    step (lightDarkPipe process light dark bin ns nb) (calEvent e) =
    some (.event e.1 e.2.1 e.2.2 (some (process e.2.2)),
      [(2, calEvent e), (13, .hist (bin (light (process e.2.2)))), (23, .hist (bin (dark (process e.2.2)))), (5, .event e.1 e.2.1 e.2.2 (some (process e.2.2)))]) := by
  simp [lightDarkPipe, accumulate, pipe, spyCount, writer, step, steps, Nets.ofList, calEvent, CalVal.process, CalVal.pickCwf, CalVal.onWf, CalVal.infoRow]

/-- **C71** phyllis and trude, for any events, range, processing and bins.  The two histograms written are the sums, over exactly the events of the range, of the histograms of the integrals of the processed waveforms in
the light and dark windows; `Run/events` has the events of the range; the counter agrees. -/
theorem lightDark_accounts (process light dark : W → W) (bin : W → List (List Nat)) (ns nb start : Nat) (stop : Option Nat) (gap : Nat) (xs : List (Int × Int × W)) :
    (push (xs.map calEvent) (lightDark process light dark bin ns nb start stop gap)).exc = none ∧
    futures 13 (push (xs.map calEvent) (lightDark process light dark bin ns nb start stop gap)) =
      [.val (.hist (Calib.sumHistograms ns nb ((Dataflow.pySlice start stop (gap + 1) xs).map fun e => bin (light (process e.2.2)))))] ∧
    futures 23 (push (xs.map calEvent) (lightDark process light dark bin ns nb start stop gap)) =
      [.val (.hist (Calib.sumHistograms ns nb ((Dataflow.pySlice start stop (gap + 1) xs).map fun e => bin (dark (process e.2.2)))))] ∧
    table 5 CalVal.infoRow (push (xs.map calEvent) (lightDark process light dark bin ns nb start stop gap)) =
      (Dataflow.pySlice start stop (gap + 1) xs).map (fun e => (e.1, e.2.1)) ∧
    futures 2 (push (xs.map calEvent) (lightDark process light dark bin ns nb start stop gap)) = [.num (Dataflow.pySlice start stop (gap + 1) xs).length] := by
  have hs : (lightDarkPipe process light dark bin ns nb).Sums := by
    simp [lightDarkPipe, accumulate, pipe, spyCount, writer, Net.Sums, Nets.Sums, Nets.ofList]
  have hi : (lightDark process light dark bin ns nb start stop gap).ids.Nodup := by
    simp [lightDark, lightDarkPipe, accumulate, pipe, spyCount, writer, Net.ids, Nets.ids, Nets.ofList]
  have hstep := lightDark_step process light dark bin ns nb
  obtain ⟨h1, h2⟩ := sliced_run 0 start stop gap true (lightDarkPipe process light dark bin ns nb) hs (xs.map calEvent) (by
    intro x hx
    rw [pySlice_map, List.mem_map] at hx
    obtain ⟨e, _, rfl⟩ := hx
    rw [hstep]; rfl)
  rw [pySlice_map] at h2
  refine ⟨h1, ?_, ?_, ?_, ?_⟩
  · have := sum_of_feeds 13 ns nb (histOf fun w => bin (light (process w))) hi (.slice (.branchDown (.mapIn (.fork .head (.map (.map (.map .refl))))))) (h2 13) (by
      intro x hx
      obtain ⟨e, _, rfl⟩ := List.mem_map.1 hx
      rw [feeds, hstep]; rfl)
    rw [List.map_map] at this
    exact this
  · have := sum_of_feeds 23 ns nb (histOf fun w => bin (dark (process w))) hi (.slice (.branchDown (.mapIn (.fork (.tail .head) (.map (.map (.map .refl))))))) (h2 23) (by
      intro x hx
      obtain ⟨e, _, rfl⟩ := List.mem_map.1 hx
      rw [feeds, hstep]; rfl)
    rw [List.map_map] at this
    exact this
  · rw [table]
    refine (congrArg (List.filterMap _) (h2 5)).trans ?_
    rw [List.filterMap_flatMap, List.flatMap_map, List.map_eq_flatMap]
    congr 1
  · have := count_all 2 hi (.slice (.branchSide .refl)) (h2 2) (by
      intro x hx
      obtain ⟨e, _, rfl⟩ := List.mem_map.1 hx
      rw [feeds, hstep]; rfl)
    rw [List.length_map] at this
    exact this

theorem berenice_step (subtract mode median : W → W) (bin : W → List (List Nat)) (ns nb : Nat) (e : Int × Int × W) :
    step (berenicePipe subtract mode median bin ns nb) (calEvent e) =
    some (calEvent e, [(2, calEvent e), (13, .hist (bin (subtract e.2.2))), (23, .hist (bin (mode e.2.2))), (33, .hist (bin (median e.2.2))), (5, calEvent e)]) := by
  simp [berenicePipe, accumulate, pipe, spyCount, writer, step, steps, Nets.ofList, calEvent, CalVal.pickWf, CalVal.onWf, CalVal.infoRow]

/-- **C71** berenice, for any events, range and calibrations: the three histograms are the sums, over exactly the events of the range, of the histograms of the waveforms with each of the three subtractions; `Run/events` has the events
of the range; the counter agrees. -/
theorem berenice_accounts (subtract mode median : W → W) (bin : W → List (List Nat)) (ns nb start : Nat) (stop : Option Nat) (gap : Nat) (xs : List (Int × Int × W)) :
    (push (xs.map calEvent) (berenice subtract mode median bin ns nb start stop gap)).exc = none ∧
    futures 13 (push (xs.map calEvent) (berenice subtract mode median bin ns nb start stop gap)) =
      [.val (.hist (Calib.sumHistograms ns nb ((Dataflow.pySlice start stop (gap + 1) xs).map fun e => bin (subtract e.2.2))))] ∧
    futures 23 (push (xs.map calEvent) (berenice subtract mode median bin ns nb start stop gap)) =
      [.val (.hist (Calib.sumHistograms ns nb ((Dataflow.pySlice start stop (gap + 1) xs).map fun e => bin (mode e.2.2))))] ∧
    futures 33 (push (xs.map calEvent) (berenice subtract mode median bin ns nb start stop gap)) =
      [.val (.hist (Calib.sumHistograms ns nb ((Dataflow.pySlice start stop (gap + 1) xs).map fun e => bin (median e.2.2))))] ∧
    table 5 CalVal.infoRow (push (xs.map calEvent) (berenice subtract mode median bin ns nb start stop gap)) =
      (Dataflow.pySlice start stop (gap + 1) xs).map (fun e => (e.1, e.2.1)) ∧
    futures 2 (push (xs.map calEvent) (berenice subtract mode median bin ns nb start stop gap)) = [.num (Dataflow.pySlice start stop (gap + 1) xs).length] := by
  have hs : (berenicePipe subtract mode median bin ns nb).Sums := by
    simp [berenicePipe, accumulate, pipe, spyCount, writer, Net.Sums, Nets.Sums, Nets.ofList]
  have hi : (berenice subtract mode median bin ns nb start stop gap).ids.Nodup := by
    simp [berenice, berenicePipe, accumulate, pipe, spyCount, writer, Net.ids, Nets.ids, Nets.ofList]
  have hstep := berenice_step subtract mode median bin ns nb
  obtain ⟨h1, h2⟩ := sliced_run 0 start stop gap true (berenicePipe subtract mode median bin ns nb) hs (xs.map calEvent) (by
    intro x hx
    rw [pySlice_map, List.mem_map] at hx
    obtain ⟨e, _, rfl⟩ := hx
    rw [hstep]; rfl)
  rw [pySlice_map] at h2
  refine ⟨h1, ?_, ?_, ?_, ?_, ?_⟩
  · have := sum_of_feeds 13 ns nb (histOf fun w => bin (subtract w)) hi (.slice (.branchDown (.fork .head (.map (.map (.map .refl)))))) (h2 13) (by
      intro x hx
      obtain ⟨e, _, rfl⟩ := List.mem_map.1 hx
      rw [feeds, hstep]; rfl)
    rw [List.map_map] at this
    exact this
  · have := sum_of_feeds 23 ns nb (histOf fun w => bin (mode w)) hi (.slice (.branchDown (.fork (.tail .head) (.map (.map (.map .refl)))))) (h2 23) (by
      intro x hx
      obtain ⟨e, _, rfl⟩ := List.mem_map.1 hx
      rw [feeds, hstep]; rfl)
    rw [List.map_map] at this
    exact this
  · have := sum_of_feeds 33 ns nb (histOf fun w => bin (median w)) hi (.slice (.branchDown (.fork (.tail (.tail .head)) (.map (.map (.map .refl)))))) (h2 33) (by
      intro x hx
      obtain ⟨e, _, rfl⟩ := List.mem_map.1 hx
      rw [feeds, hstep]; rfl)
    rw [List.map_map] at this
    exact this
  · rw [table]
    refine (congrArg (List.filterMap _) (h2 5)).trans ?_
    rw [List.filterMap_flatMap, List.flatMap_map, List.map_eq_flatMap]
    congr 1
  · have := count_all 2 hi (.slice (.branchSide .refl)) (h2 2) (by
      intro x hx
      obtain ⟨e, _, rfl⟩ := List.mem_map.1 hx
      rw [feeds, hstep]; rfl)
    rw [List.length_map] at this
    exact this

/-- Non-vacuity: two sensors and one bin that counts the positive samples; three events, of which the last two are in the range. -/
example : futures 13 (push ([(1, 10, [[(1 : Int)], [2, 0]]), (2, 20, [[3, 4], [0]]), (3, 30, [[5], [6]])].map calEvent)
    (lightDark (fun w => w) (fun w => w) (fun w => w) (fun w => w.map fun r => [r.countP (0 < ·)]) 2 1 1 none 0)) = [.val (.hist [[3], [1]])] := by
  rw [(lightDark_accounts _ _ _ _ 2 1 1 none 0 _).2.1]
  rfl

example : futures 33 (push ([(1, 10, [[(1 : Int)], [2, 0]]), (2, 20, [[3, 4], [0]]), (3, 30, [[5], [6]])].map calEvent)
    (berenice (fun w => w) (fun w => w) (fun w => w.map fun r => r.map (· - 4)) (fun w => w.map fun r => [r.countP (0 < ·)]) 2 1 0 none 0)) = [.val (.hist [[1], [1]])] := by
  rw [(berenice_accounts _ _ _ _ 2 1 0 none 0 _).2.2.2.1]
  rfl

end Verif.Cities
