import Verif.Props.Cities
/-!
# Accounting of events in diomira, isidora and the calibration cities
-/
namespace Verif.Cities
open Verif.Dataflow

section wfs
variable {W T : Type}

/-- The decision of the trigger on the simulated PMT waveforms. -/
def triggered (f : TrigFns W T) (x : WfItem W T) : Bool := f.pass (f.trigger (f.pmt x.pmt).1)

theorem diomira_step (f : TrigFns W T) (x : WfItem W T) : step (diomiraPipe f) x =
    (let y : WfItem W T := { x with pmtSim := some (f.pmt x.pmt).1, blrSim := some (f.pmt x.pmt).2, trigger := some (f.trigger (f.pmt x.pmt).1), pass := some (triggered f x) }
     let z : WfItem W T := { y with sipmSim := some (f.sipm x.sipm) }
     if triggered f x then some (z, [(2, x), (7, y), (8, y), (11, z), (13, z), (14, z), (15, z), (16, z)])
     else some (y, [(2, x), (7, y), (8, y)])) := by
  cases h1 : triggered f x <;> unfold triggered at h1 <;>
  simp [diomiraPipe, pipe, spyCount, mapField, writer, need, step, steps, Nets.ofList, h1, WfItem.triggerRow, WfItem.infoRow, WfItem.number]

/-- **C70** diomira, for any events, range and functions.  `Filters/trigger` has a row for every event of the range; the three tables of waveforms, `Run/events` and the list of event numbers have exactly the triggered events, in the order
of the source, so that the same row of each of them is of the same event; the counters agree. -/
theorem diomira_accounts (f : TrigFns W T) (start : Nat) (stop : Option Nat) (gap : Nat) (xs : List (WfItem W T)) :
    (push xs (diomira f start stop gap)).exc = none ∧
    table 7 WfItem.triggerRow (push xs (diomira f start stop gap)) = (pySlice start stop (gap + 1) xs).map (fun x => (x.event, triggered f x)) ∧
    table 13 WfItem.pmtSim (push xs (diomira f start stop gap)) = ((pySlice start stop (gap + 1) xs).filter (fun x => triggered f x)).map (fun x => (f.pmt x.pmt).1) ∧
    table 14 WfItem.blrSim (push xs (diomira f start stop gap)) = ((pySlice start stop (gap + 1) xs).filter (fun x => triggered f x)).map (fun x => (f.pmt x.pmt).2) ∧
    table 15 WfItem.sipmSim (push xs (diomira f start stop gap)) = ((pySlice start stop (gap + 1) xs).filter (fun x => triggered f x)).map (fun x => f.sipm x.sipm) ∧
    table 16 WfItem.infoRow (push xs (diomira f start stop gap)) = ((pySlice start stop (gap + 1) xs).filter (fun x => triggered f x)).map (fun x => (x.event, x.time)) ∧
    table 11 WfItem.number (push xs (diomira f start stop gap)) = ((pySlice start stop (gap + 1) xs).filter (fun x => triggered f x)).map (fun x => x.event) ∧
    futures 2 (push xs (diomira f start stop gap)) = [.num (pySlice start stop (gap + 1) xs).length] ∧
    futures 8 (push xs (diomira f start stop gap)) = [.passedFailed ((pySlice start stop (gap + 1) xs).countP (fun x => triggered f x)) ((pySlice start stop (gap + 1) xs).countP (fun x => !triggered f x))] := by
  have hs : (diomiraPipe f).Sums := by
    simp [diomiraPipe, pipe, spyCount, mapField, writer, filterSome, Net.Sums, Nets.Sums, Nets.ofList]
  have hi : (diomira f start stop gap).ids.Nodup := by
    simp [diomira, diomiraPipe, pipe, spyCount, mapField, writer, filterSome, Net.ids, Nets.ids, Nets.ofList]
  have hstep := diomira_step f
  obtain ⟨h1, h2⟩ := sliced_run 0 start stop gap true (diomiraPipe f) hs xs (by intro x _; rw [hstep]; cases c0 : triggered f x <;> simp [*])
  refine ⟨h1, ?_, ?_, ?_, ?_, ?_, ?_, ?_, ?_⟩
  · exact table_of_feeds_all 7 _ _ (h2 7) (by intro x; rw [feeds, hstep]; cases c0 : triggered f x <;> simp [*, WfItem.triggerRow])
  · exact table_of_feeds 13 _ _ _ (h2 13) (by intro x; rw [feeds, hstep]; cases c0 : triggered f x <;> simp [*])
  · exact table_of_feeds 14 _ _ _ (h2 14) (by intro x; rw [feeds, hstep]; cases c0 : triggered f x <;> simp [*])
  · exact table_of_feeds 15 _ _ _ (h2 15) (by intro x; rw [feeds, hstep]; cases c0 : triggered f x <;> simp [*])
  · exact table_of_feeds 16 _ _ _ (h2 16) (by intro x; rw [feeds, hstep]; cases c0 : triggered f x <;> simp [*, WfItem.infoRow])
  · exact table_of_feeds 11 _ _ _ (h2 11) (by intro x; rw [feeds, hstep]; cases c0 : triggered f x <;> simp [*, WfItem.number])
  · have := count_of_feeds 2 (fun _ => true) hi (.slice (.branchSide .refl)) (h2 2) (by intro x; rw [feeds, hstep]; cases c0 : triggered f x <;> simp [*])
    rw [List.countP_true] at this
    exact this
  · exact countFilter_of_feeds 8 _ _ (fun _ => true) (fun x => triggered f x) hi (.slice (.branchDown (.mapIn (.mapIn (.mapIn (.branchDown .refl)))))) (h2 8) (by intro x; rw [feeds, hstep]; cases c0 : triggered f x <;> simp [*, gave, need])

theorem isidora_step (deconv : W → W) (x : WfItem W T) : step (isidoraPipe deconv) x =
    (let y : WfItem W T := { x with cwf := some (deconv x.pmt) }
     some (y, [(2, x), (4, x), (7, y), (8, y), (9, y)])) := by
  simp [isidoraPipe, pipe, spyCount, mapField, writer, step, steps, Nets.ofList, WfItem.sipmRow, WfItem.infoRow, WfItem.number]

/-- **C70** isidora, for any events, range and deconvolution: every event of the range is in the two tables of waveforms, in `Run/events` and in the list of event numbers, in the order of the source. -/
theorem isidora_accounts (deconv : W → W) (start : Nat) (stop : Option Nat) (gap : Nat) (xs : List (WfItem W T)) :
    (push xs (isidora deconv start stop gap)).exc = none ∧
    table 7 WfItem.cwf (push xs (isidora deconv start stop gap)) = (pySlice start stop (gap + 1) xs).map (fun x => deconv x.pmt) ∧
    table 8 WfItem.sipmRow (push xs (isidora deconv start stop gap)) = (pySlice start stop (gap + 1) xs).map (fun x => x.sipm) ∧
    table 9 WfItem.infoRow (push xs (isidora deconv start stop gap)) = (pySlice start stop (gap + 1) xs).map (fun x => (x.event, x.time)) ∧
    table 4 WfItem.number (push xs (isidora deconv start stop gap)) = (pySlice start stop (gap + 1) xs).map (fun x => x.event) ∧
    futures 2 (push xs (isidora deconv start stop gap)) = [.num (pySlice start stop (gap + 1) xs).length] := by
  have hs : (isidoraPipe (T := T) deconv).Sums := by
    simp [isidoraPipe, pipe, spyCount, mapField, writer, filterSome, Net.Sums, Nets.Sums, Nets.ofList]
  have hi : (isidora (T := T) deconv start stop gap).ids.Nodup := by
    simp [isidora, isidoraPipe, pipe, spyCount, mapField, writer, filterSome, Net.ids, Nets.ids, Nets.ofList]
  have hstep := isidora_step (T := T) deconv
  obtain ⟨h1, h2⟩ := sliced_run 0 start stop gap true (isidoraPipe (T := T) deconv) hs xs (by intro x _; rw [hstep]; simp [*])
  refine ⟨h1, ?_, ?_, ?_, ?_, ?_⟩
  · exact table_of_feeds_all 7 _ _ (h2 7) (by intro x; rw [feeds, hstep]; simp [*])
  · exact table_of_feeds_all 8 _ _ (h2 8) (by intro x; rw [feeds, hstep]; simp [*, WfItem.sipmRow])
  · exact table_of_feeds_all 9 _ _ (h2 9) (by intro x; rw [feeds, hstep]; simp [*, WfItem.infoRow])
  · exact table_of_feeds_all 4 _ _ (h2 4) (by intro x; rw [feeds, hstep]; simp [*, WfItem.number])
  · have := count_of_feeds 2 (fun _ => true) hi (.slice (.branchSide .refl)) (h2 2) (by intro x; rw [feeds, hstep]; simp [*])
    rw [List.countP_true] at this
    exact this

/-- Non-vacuity: a trigger on the number of the simulated PMT. -/
def exampleTrig : TrigFns Nat Nat where
  pmt := fun w => (2 * w, w)
  trigger := fun w => w
  pass := fun t => decide (t < 15)
  sipm := fun w => w + 1

example : table 15 WfItem.sipmSim (push [(⟨1, 10, 5, 6, none, none, none, none, none, none⟩ : WfItem Nat Nat), ⟨2, 20, 9, 8, none, none, none, none, none, none⟩, ⟨3, 30, 4, 7, none, none, none, none, none, none⟩] (diomira exampleTrig 0 none 0)) = [7, 8] ∧
    table 7 WfItem.triggerRow (push [(⟨1, 10, 5, 6, none, none, none, none, none, none⟩ : WfItem Nat Nat), ⟨2, 20, 9, 8, none, none, none, none, none, none⟩, ⟨3, 30, 4, 7, none, none, none, none, none, none⟩] (diomira exampleTrig 0 none 0)) = [(1, true), (2, false), (3, true)] ∧
    table 7 WfItem.cwf (push [(⟨1, 10, 5, 6, none, none, none, none, none, none⟩ : WfItem Nat Nat), ⟨2, 20, 9, 8, none, none, none, none, none, none⟩, ⟨3, 30, 4, 7, none, none, none, none, none, none⟩] (isidora (fun w => w + 1) 1 (some 3) 0)) = [10, 5] := by
  refine ⟨?_, ?_, ?_⟩
  · rw [(diomira_accounts exampleTrig 0 none 0 _).2.2.2.2.1]; rfl
  · rw [(diomira_accounts exampleTrig 0 none 0 _).2.1]; rfl
  · rw [(isidora_accounts _ 1 (some 3) 0 _).2.1]; rfl

end wfs
end Verif.Cities
